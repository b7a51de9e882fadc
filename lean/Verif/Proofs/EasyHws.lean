import Verif.Proofs.EasyWs
import Verif.Spec.EasyHws
/-! # Proofs about sessions of easy HTTP and WebSocket servers -/
namespace Verif.EasyHws
open Verif.Easy Verif.EasyNet Verif.Spec
open Verif.EasyWs (event events SMore WMsg)
open Verif.HttpLib (Lib)
open Verif.HttpServer (Syncs Timely InStep)

variable {Z : Type} {L : Lib}

theorem lift_request (e : Event WMsg) : isRequest (lift e) = false := by
  obtain ⟨ty, er, d, m⟩ := e
  cases m <;> simp [isRequest, lift]

theorem lift_open (e : Event WMsg) : isOpen (lift e) = EasyWs.isOpen e := by
  obtain ⟨ty, er, d, m⟩ := e
  rcases m with _ | (_ | _ | _ | _) <;> rfl

theorem lift_message (e : Event WMsg) : isMessage (lift e) = EasyWs.isMessage e := by
  obtain ⟨ty, er, d, m⟩ := e
  rcases m with _ | (_ | _ | _ | _) <;> rfl

theorem plain_request (h : HttpRequest.Headers) (e : Event HMsg) (he : e ∈ plain h) : isRequest e = true ∧ isOpen e = false ∧ e.ty ≠ .close := by
  unfold plain at he
  simp only at he
  split at he
  · rw [List.mem_singleton] at he; subst he; exact ⟨rfl, rfl, by simp⟩
  · rw [List.mem_singleton] at he; subst he; exact ⟨rfl, rfl, by simp⟩
  · cases he

/-- What is known about a session at any time, until its socket is closed. -/
structure HInv (s : H Z) : Prop where
  inv : WsServer.Inv s.w
  ws : s.log.filter (fun e => !isRequest e) = (s.w.ws.trace.flatMap (event (s.w.addresses.getLastD []))).map lift
  order : ∀ pre e post, s.log = pre ++ e :: post → isRequest e = true → ∀ o ∈ pre, isOpen o = false

theorem HInv.unopened {s : H Z} (h : HInv s) (ha : .accepted ∉ s.w.ws.trace) : ∀ o ∈ s.log, isOpen o = false := by
  intro o ho
  rw [← Bool.not_eq_true]
  intro hop
  have hr : isRequest o = false := by
    unfold isOpen at hop
    simp only [beq_iff_eq] at hop
    simp [isRequest, hop]
  have : o ∈ s.log.filter (fun e => !isRequest e) := List.mem_filter.mpr ⟨ho, by simp [hr]⟩
  rw [h.ws] at this
  obtain ⟨e, he, rfl⟩ := List.mem_map.mp this
  obtain ⟨x, hx, he⟩ := List.mem_flatMap.mp he
  rw [lift_open] at hop
  rcases EasyWs.event_cases (s.w.addresses.getLastD []) x with ⟨h1, -⟩ | ⟨e', h1, h2, -⟩
  · rw [h1] at he; cases he
  · rw [h1, List.mem_singleton] at he
    subst he
    exact ha (h2.1 hop ▸ hx)

/-- Nothing that is not a request changes the order. -/
theorem order_tail {l m : List (Event HMsg)} (h : ∀ pre e post, l = pre ++ e :: post → isRequest e = true → ∀ o ∈ pre, isOpen o = false) (hm : ∀ e ∈ m, isRequest e = false) :
    ∀ pre e post, l ++ m = pre ++ e :: post → isRequest e = true → ∀ o ∈ pre, isOpen o = false := by
  intro pre e post he hr
  rcases List.append_eq_append_iff.1 he with ⟨u, e1, e2⟩ | ⟨u, e1, e2⟩
  · have := hm e (by rw [e2]; simp)
    rw [hr] at this; cases this
  · cases u with
    | nil =>
      have := hm e (by rw [← List.nil_append m, ← e2]; simp)
      rw [hr] at this; cases this
    | cons x u =>
      simp only [List.cons_append, List.cons.injEq] at e2
      obtain ⟨rfl, -⟩ := e2
      exact h pre e u e1 hr

theorem lifted_request (l : List (Event WMsg)) : ∀ e ∈ l.map lift, isRequest e = false := by
  intro e he
  obtain ⟨x, -, rfl⟩ := List.mem_map.mp he
  exact lift_request x

theorem filter_lifted (l : List (Event WMsg)) : (l.map lift).filter (fun e => !isRequest e) = l.map lift := by
  rw [List.filter_eq_self]
  intro e he
  rw [lifted_request l e he]; rfl

/-- What a session pushes by itself. -/
theorem hinv_take {s : H Z} (h : HInv s) {w : WsServer.W Z} (hw : WsServer.Inv w) (hm : SMore s.w w) : HInv (s.take w) := by
  refine ⟨hw, ?_, order_tail h.order (lifted_request _)⟩
  show List.filter _ (s.log ++ _) = _
  rw [List.filter_append, h.ws, filter_lifted, ← List.map_append]
  show List.map lift (s.w.ws.trace.flatMap (event (s.w.addresses.getLastD [])) ++ events (w.addresses.getLastD []) s.w.ws.trace w.ws.trace) = _
  rw [EasyWs.events_split _ _ _ _ hm.1 (EasyWs.same_address h.inv hw hm)]
  rfl

theorem hinv_note {s : H Z} (h : HInv s) (w : WsServer.W Z) (hw : WsServer.Inv w) (h1 : w.ws.trace = s.w.ws.trace) (h2 : w.addresses = s.w.addresses) : HInv ({ s with w := w } : H Z) :=
  ⟨hw, by rw [h.ws, h1, h2], h.order⟩

theorem hinv_plain {s : H Z} (h : HInv s) (w : WsServer.W Z) (hw : WsServer.Inv w) (h1 : w.ws.trace = s.w.ws.trace) (h2 : w.addresses = s.w.addresses) (hu : s.w.ws.upgraded = false) (l : List (Event HMsg))
    (hl : ∀ e ∈ l, isRequest e = true ∧ isOpen e = false) : HInv ({ w := w, log := s.log ++ l } : H Z) := by
  have ha : .accepted ∉ s.w.ws.trace := by
    cases h.inv with
    | before _ _ _ acc => exact acc
    | refused _ up => rw [hu] at up; cases up
    | after _ up => rw [hu] at up; cases up
  refine ⟨hw, ?_, ?_⟩
  · simp only
    rw [List.filter_append, h.ws, h1, h2]
    have : l.filter (fun e => !isRequest e) = [] := by
      rw [List.filter_eq_nil_iff]
      intro e he
      rw [(hl e he).1]; simp
    rw [this, List.append_nil]
  · intro pre e post he _ o ho
    have : o ∈ s.log ++ l := by
      have he : s.log ++ l = pre ++ e :: post := he
      rw [he]; simp [ho]
    rcases List.mem_append.mp this with h3 | h3
    · exact h.unopened ha o h3
    · exact (hl o h3).2

theorem hinv_step (g : WsServer.Cfg Z) (s : H Z) (e : HttpServer.Ev) (hi : HInv s) (ht : Timely (fun _ => s.w.ws.upgraded) [] e) : HInv (s.step g e) := by
  unfold H.step
  split
  · rename_i h eot
    have hi' : WsServer.Inv ({ s.w with calls := s.w.calls + 1, heads := s.w.heads ++ [h] } : WsServer.W Z) := hi.inv.mono rfl rfl rfl rfl rfl ⟨[h], rfl⟩
    split
    · exact hi
    · simp only
      split
      · exact hinv_note hi _ hi' rfl rfl
      · rename_i hp
        split
        · exact hinv_take hi (WsServer.inv_complete g _ h eot (by simpa using hp) (by simp) hi' ht)
            (SMore.trans (b := { s.w with calls := s.w.calls + 1, heads := s.w.heads ++ [h] }) (.refl s.w) (EasyWs.smore_complete g _ h eot))
        · exact hinv_plain hi _ hi' rfl rfl ht _ (fun e he => ⟨(plain_request h e he).1, (plain_request h e he).2.1⟩)
  · exact hinv_take hi (WsServer.inv_step g _ _ hi.inv ht) (EasyWs.smore_step g _ _)

theorem of_snoc (g : WsServer.Cfg Z) (s : H Z) (t : List HttpServer.Ev) (e : HttpServer.Ev) : H.of g s (t ++ [e]) = (H.of g s t).step g e := by simp [H.of, List.foldl_append]

/-- Whether a response with status 101 has been sent. -/
def switched (g : WsServer.Cfg Z) (s : H Z) (t : List HttpServer.Ev) : Bool := (H.of g s t).w.ws.upgraded

theorem app_syncs (g : WsServer.Cfg Z) (s : H Z) : Syncs (app g s) (switched g s) := by
  constructor
  case headers =>
    intro t h e
    unfold switched
    rw [of_snoc]
    unfold H.step app
    simp only
    split
    · simp
    · split
      · simp
      · split
        · simp [H.take, WsServer.complete_upgraded]
        · split <;> simp
  case other =>
    intro t e he
    have := (WsServer.app_syncs g (H.of g s t).w).other [] e he
    unfold switched
    rw [of_snoc]
    unfold H.step
    split
    · rename_i h b; exact absurd rfl (he h b)
    · exact this
  case finish => intros; rfl
  case rejects =>
    intro t h e x hx
    unfold app at hx
    simp only at hx
    split at hx
    · simp at hx
    · split at hx
      · simp only [List.mem_singleton] at hx; subst hx; simp
      · split at hx
        · simp at hx
        · split at hx
          · simp only [List.mem_singleton] at hx; subst hx; simp
          · simp at hx
  case type =>
    intro t h e
    left
    unfold app
    simp only
    repeat' split
    all_goals rfl

theorem hinv_all (g : WsServer.Cfg Z) (s : H Z) (hi : HInv s) (t : List HttpServer.Ev) (h : InStep (switched g s) t) : HInv (H.of g s t) := by
  have gen : ∀ n, n ≤ t.length → HInv (H.of g s (t.take n)) := by
    intro n
    induction n with
    | zero => intro _; exact hi
    | succ n ih =>
      intro hn
      have hn' : n < t.length := hn
      rw [List.take_succ_eq_append_getElem hn', of_snoc]
      refine hinv_step g _ _ (ih (by omega)) ?_
      have := h (t.take n) t[n] (t.drop (n + 1)) (by rw [List.getElem_cons_drop, List.take_append_drop])
      revert this
      cases t[n] <;> exact id
  have := gen t.length (by omega)
  rwa [List.take_length] at this

theorem hinv_reads (g : WsServer.Cfg Z) (c : HttpRequest.Cfg) (s s' : H Z) (hi : HInv s) (x : HttpServer.Sess L) (h1 : x.trace = []) (h2 : x.ack = s.w.ws.upgraded) (reads : List HttpServer.Act) (hs : .switch ∉ reads)
    (h : s.reads g c x reads = some s') : HInv s' := by
  unfold H.reads at h
  split at h
  · cases h
  · rename_i x' b hr
    have h3 := HttpServer.sync_run (app_syncs g s) (c := c) reads hs x [] ⟨by rw [h1]; exact h2, by rw [h1]; intro pre e post h; simp at h⟩ _ hr
    simp only [Option.some.injEq] at h
    subst h
    have h4 := hinv_all g s hi _ h3.2
    exact hinv_note h4 _ (h4.inv.mono rfl rfl rfl rfl rfl ⟨[], by simp⟩) rfl rfl

/-! ### What has been pushed -/

theorem more_step (g : WsServer.Cfg Z) (s : H Z) (e : HttpServer.Ev) : s.log <+: (s.step g e).log := by
  unfold H.step
  split
  · split
    · exact List.prefix_refl _
    · simp only
      split
      · exact List.prefix_refl _
      · split
        · exact ⟨_, rfl⟩
        · exact ⟨_, rfl⟩
  · exact ⟨_, rfl⟩

theorem more_of (g : WsServer.Cfg Z) (t : List HttpServer.Ev) : ∀ s : H Z, s.log <+: (H.of g s t).log := by
  induction t with
  | nil => intro s; exact List.prefix_refl _
  | cons e t ih => intro s; exact (more_step g s e).trans (ih (s.step g e))

theorem more_reads (g : WsServer.Cfg Z) (c : HttpRequest.Cfg) (b : H Z) (x : HttpServer.Sess L) (xs ys : List HttpServer.Act) (s s' : H Z) (h : b.reads g c x xs = some s) (h' : b.reads g c x (xs ++ ys) = some s') :
    s.log <+: s'.log := by
  unfold H.reads at h h'
  rw [HttpServer.run_append] at h'
  cases hx : HttpServer.run (app g b) c x [] xs with
  | none => rw [hx] at h; cases h
  | some r =>
    obtain ⟨s1, b1⟩ := r
    rw [hx] at h h'
    simp only [Option.some.injEq] at h
    simp only at h'
    cases hy : HttpServer.run (app g b) c s1 b1 ys with
    | none => rw [hy] at h'; cases h'
    | some r =>
      obtain ⟨s2, b2⟩ := r
      rw [hy] at h'
      simp only [Option.some.injEq] at h'
      subst h h'
      obtain ⟨t, ht⟩ := HttpServer.run_adds _ _ _ hy
      have := more_of g t (H.of g b s1.trace)
      have e : H.of g b s2.trace = H.of g (H.of g b s1.trace) t := by rw [← ht]; simp [H.of, List.foldl_append]
      simp only
      rw [e]
      exact this

theorem more_reads_nil (g : WsServer.Cfg Z) (c : HttpRequest.Cfg) (b : H Z) (x : HttpServer.Sess L) (xs : List HttpServer.Act) (s : H Z) (h : b.reads g c x xs = some s) : b.log <+: s.log := by
  unfold H.reads at h
  split at h
  · cases h
  · cases h; exact more_of g _ b

structure NOk (g : WsServer.Cfg Z) (c : HttpRequest.Cfg) (x : Node Z L) : Prop where
  base : HInv x.base
  trace : x.http.trace = []
  ack : x.http.ack = x.base.w.ws.upgraded
  acts : .switch ∉ x.acts
  reads : x.base.reads g c x.http x.acts = some x.s

theorem NOk.inv {g : WsServer.Cfg Z} {c : HttpRequest.Cfg} {x : Node Z L} (h : NOk g c x) : HInv x.s := hinv_reads g c _ _ h.base _ h.trace h.ack _ h.acts h.reads

theorem hinv_start (g : WsServer.Cfg Z) : HInv (H.start g) := ⟨WsServer.inv_start g, rfl, fun pre e post h => by simp [H.start] at h⟩

theorem nok_init (g : WsServer.Cfg Z) (c : HttpRequest.Cfg) (resume : H Z → HttpRequest.Parser × L.σ) : NOk g c (server g c L resume).init :=
  ⟨hinv_start g, rfl, rfl, by simp [server], rfl⟩

theorem nok_read {g : WsServer.Cfg Z} {c : HttpRequest.Cfg} {resume : H Z → HttpRequest.Parser × L.σ} {x y : Node Z L} {d : Bytes} {e : Bool} {evs : List (Event HMsg)} (hx : NOk g c x)
    (h : x.read g c resume d e = some (y, evs)) : NOk g c y ∧ x.s.log ++ evs = y.s.log := by
  have fin : ∀ a b : List (Event HMsg), a <+: b → a ++ b.drop a.length = b := by rintro a b ⟨t, rfl⟩; simp
  unfold Node.read at h
  simp only at h
  by_cases ht : x.s.w.threw = true
  · rw [if_pos ht] at h
    split at h
    · cases h
    · rename_i s hs
      simp only [Option.some.injEq, Prod.mk.injEq] at h
      obtain ⟨rfl, rfl⟩ := h
      have hi : HInv ({ x.s with w := { x.s.w with threw := false } } : H Z) := hinv_note hx.inv _ (hx.inv.inv.mono rfl rfl rfl rfl rfl ⟨[], by simp⟩) rfl rfl
      exact ⟨⟨hi, rfl, rfl, by simp, hs⟩, fin _ _ (more_reads_nil g c ({ x.s with w := { x.s.w with threw := false } } : H Z) _ _ _ hs)⟩
  · rw [if_neg ht] at h
    split at h
    · cases h
    · rename_i s hs
      simp only [Option.some.injEq, Prod.mk.injEq] at h
      obtain ⟨rfl, rfl⟩ := h
      exact ⟨⟨hx.base, hx.trace, hx.ack, by simp [hx.acts], hs⟩, fin _ _ (more_reads g c _ _ _ _ _ _ hx.reads hs)⟩

/-- What a session has pushed. -/
theorem server_outputs {g : WsServer.Cfg Z} {c : HttpRequest.Cfg} {resume : H Z → HttpRequest.Parser × L.σ} (h : List In) (hh : Ordered h) {x : Node Z L} {evs : List (Event HMsg)}
    (ho : outputs (server g c L resume) (server g c L resume).init h = some (x, evs)) :
    ∃ y : Node Z L, NOk g c y ∧ x.s = (if EasyWs.isClosed h then y.s.closed g else y.s) ∧ (EasyWs.isClosed h = false → x = y) ∧ evs = x.s.log := by
  induction h using snocInd generalizing x evs with
  | nil =>
    simp only [outputs, Option.some.injEq, Prod.mk.injEq] at ho
    obtain ⟨rfl, rfl⟩ := ho
    exact ⟨_, nok_init g c resume, rfl, fun _ => rfl, rfl⟩
  | snoc h i ih =>
    obtain ⟨hp, ha⟩ := EasyHttp.ordered_pre hh
    obtain ⟨y, e1, e2, h1, h2, rfl⟩ := outputs_unsnoc ho
    obtain ⟨z, h3, h4, h5, h6⟩ := ih hp h1
    have hrd : ∀ d e, i.isClosed = false → EasyWs.isClosed h = false → y.read g c resume d e = some (x, e2) → _ := fun d e hi hc hr => by
      have hc' : EasyWs.isClosed (h ++ [i]) = false := by unfold EasyWs.isClosed at hc ⊢; rw [List.any_append, hc]; simp [hi]
      have hz := h5 hc
      subst hz
      obtain ⟨r1, r2⟩ := nok_read h3 hr
      exact (⟨x, r1, by rw [hc']; rfl, fun _ => rfl, by rw [h6]; exact r2⟩ : ∃ y : Node Z L, NOk g c y ∧ x.s = (if EasyWs.isClosed (h ++ [i]) then y.s.closed g else y.s) ∧
        (EasyWs.isClosed (h ++ [i]) = false → x = y) ∧ e1 ++ e2 = x.s.log)
    cases i with
    | connected =>
      simp only [admits, List.isEmpty_iff] at ha
      subst ha
      simp only [server, Option.some.injEq, Prod.mk.injEq] at h2
      obtain ⟨rfl, rfl⟩ := h2
      exact ⟨z, h3, h4, h5, by simpa using h6⟩
    | closed r =>
      simp only [server, Option.some.injEq, Prod.mk.injEq] at h2
      obtain ⟨rfl, rfl⟩ := h2
      simp only [admits, Bool.not_eq_true'] at ha
      have hz := h5 ha
      subst hz
      refine ⟨y, h3, ?_, ?_, ?_⟩
      · rw [if_pos (by simp [EasyWs.isClosed, In.isClosed])]
      · intro hc; simp [EasyWs.isClosed, In.isClosed] at hc
      · rw [h6]
        show y.s.log ++ List.drop y.s.log.length (y.s.log ++ _) = y.s.log ++ _
        rw [List.drop_left]
    | read d =>
      simp only [admits, Bool.and_eq_true, Bool.not_eq_true'] at ha
      exact hrd d false rfl ha.2 h2
    | eof =>
      simp only [admits, Bool.and_eq_true, Bool.not_eq_true'] at ha
      exact hrd [] true rfl ha.2 h2

end Verif.EasyHws
