import Verif.Proofs.EasyNet
import Verif.Proofs.EasyHttp
import Verif.Proofs.EasyHttpClient
import Verif.Proofs.WsServerInv
import Verif.Proofs.WsClientInv
import Verif.Proofs.HttpServerConsume
import Verif.Proofs.HttpClientConsume
import Verif.Spec.EasyWs
/-! # Proofs about sessions of easy WebSocket servers and clients -/
namespace Verif.EasyWs
open Verif.Easy Verif.EasyNet Verif.Spec
open Verif.HttpLib (Lib)

variable {Z : Type} {L : Lib}

/-! ### Servers -/

/-- The history, and the addresses, have been extended. -/
def SMore (w w' : WsServer.W Z) : Prop := w.ws.trace <+: w'.ws.trace ∧ w.addresses <+: w'.addresses

theorem SMore.refl (w : WsServer.W Z) : SMore w w := ⟨List.prefix_refl _, List.prefix_refl _⟩
theorem SMore.trans {a b c : WsServer.W Z} (h : SMore a b) (h' : SMore b c) : SMore a c := ⟨h.1.trans h'.1, h.2.trans h'.2⟩

theorem smore_close (g : WsServer.Cfg Z) (w : WsServer.W Z) (n : Nat) (r : Bytes) : SMore w (w.close g n r) := by
  obtain ⟨-, m, h, -⟩ := Ws.grows_close_once g.env n r (Ws.Grows.refl w.ws)
  exact ⟨⟨m, h.symm⟩, List.prefix_refl _⟩

theorem smore_complete (g : WsServer.Cfg Z) (w : WsServer.W Z) (h : HttpRequest.Headers) (e : Bool) : SMore w (w.complete g h e).1 := by
  unfold WsServer.W.complete
  split
  · exact .refl w
  · split
    · exact .refl w
    · simp only
      split
      · exact .refl w
      · split
        · obtain ⟨a, b⟩ := smore_close g (w := ({ w with ws := { w.ws with parser := ‹Ws.Parser›, upgraded := decide (‹Nat› = 101) }, responses := w.responses ++ [‹Nat›] } : WsServer.W Z)) 1002 (Ws.descBytes (‹Ws.Parser›).error_desc)
          exact ⟨a, b⟩
        · exact ⟨⟨_, rfl⟩, ⟨_, rfl⟩⟩

theorem smore_error (g : WsServer.Cfg Z) (w : WsServer.W Z) (n : Nat) : SMore w (w.error g n) := by
  unfold WsServer.W.error
  split
  · exact .refl w
  · exact SMore.trans (b := { w with responses := _ }) (.refl w) (smore_close g _ _ _)

theorem smore_step (g : WsServer.Cfg Z) (w : WsServer.W Z) (e : HttpServer.Ev) : SMore w (w.step g e) := by
  unfold WsServer.W.step
  split
  · exact .refl w
  · have h0 : SMore w ({ w with calls := w.calls + 1 }) := .refl w
    cases e with
    | headers h eot =>
      simp only
      split
      · exact .refl w
      · exact SMore.trans (b := { w with calls := w.calls + 1, heads := w.heads ++ [h] }) (.refl w) (smore_complete g _ h eot)
    | stream d => exact h0
    | finish a b e => exact h0
    | error a n => exact h0.trans (smore_error g _ n)
    | reject a n => exact h0.trans (smore_error g _ n)
    | upgraded d e =>
      obtain ⟨-, m, h, -⟩ := Ws.grows_stream g.env (g.addr (w.calls + 1)) w.ws d
      exact ⟨⟨m, h.symm⟩, List.prefix_refl _⟩

theorem smore_of (g : WsServer.Cfg Z) (t : List HttpServer.Ev) : ∀ w, SMore w (WsServer.W.of g w t) := by
  induction t with
  | nil => intro w; exact .refl w
  | cons e t ih => intro w; exact (smore_step g w e).trans (ih (w.step g e))

/-- Reading more extends the history. -/
theorem smore_reads (g : WsServer.Cfg Z) (c : HttpRequest.Cfg) (b : WsServer.W Z) (s : HttpServer.Sess L) (hs : s.trace = []) (xs ys : List HttpServer.Act) (w w' : WsServer.W Z) (h : b.reads g c s xs = some w)
    (h' : b.reads g c s (xs ++ ys) = some w') : SMore b w ∧ SMore w w' := by
  unfold WsServer.W.reads at h h'
  rw [HttpServer.run_append] at h'
  cases hx : HttpServer.run (WsServer.app g b) c s [] xs with
  | none => rw [hx] at h; cases h
  | some r =>
    obtain ⟨s1, b1⟩ := r
    rw [hx] at h h'
    simp only [Option.some.injEq] at h
    simp only at h'
    cases hy : HttpServer.run (WsServer.app g b) c s1 b1 ys with
    | none => rw [hy] at h'; cases h'
    | some r =>
      obtain ⟨s2, b2⟩ := r
      rw [hy] at h'
      simp only [Option.some.injEq] at h'
      subst h h'
      obtain ⟨t, ht⟩ := HttpServer.run_adds _ _ _ hy
      refine ⟨smore_of g _ b, ?_⟩
      have := smore_of g t (WsServer.W.of g b s1.trace)
      have e : WsServer.W.of g b s2.trace = WsServer.W.of g (WsServer.W.of g b s1.trace) t := by
        rw [← ht]; simp [WsServer.W.of, List.foldl_append]
      rw [e]
      exact this

theorem smore_reads_nil (g : WsServer.Cfg Z) (c : HttpRequest.Cfg) (b : WsServer.W Z) (s : HttpServer.Sess L) (hs : s.trace = []) (xs : List HttpServer.Act) (w : WsServer.W Z) (h : b.reads g c s xs = some w) : SMore b w := by
  unfold WsServer.W.reads at h
  split at h
  · cases h
  · cases h; exact smore_of g _ b

theorem events_split (a b : Bytes) (t u : List Ws.Ev) (h : t <+: u) (hab : .accepted ∈ t → a = b) : t.flatMap (event a) ++ events b t u = u.flatMap (event b) := by
  obtain ⟨r, rfl⟩ := h
  unfold events
  rw [List.drop_left, List.flatMap_append]
  congr 1
  by_cases hx : .accepted ∈ t
  · rw [hab hx]
  · clear hab
    induction t with
    | nil => rfl
    | cons e t ih =>
      rw [List.flatMap_cons, List.flatMap_cons, ih (fun h => hx (List.mem_cons_of_mem _ h))]
      congr 1
      cases e <;> first | rfl | (exact absurd (by simp) hx)

theorem same_address {w w' : WsServer.W Z} (h : WsServer.Inv w) (h' : WsServer.Inv w') (hm : SMore w w') (ha : .accepted ∈ w.ws.trace) : w.addresses.getLastD [] = w'.addresses.getLastD [] := by
  obtain ⟨x, -, -, -, hx⟩ := (h.accepted ha).request
  obtain ⟨y, -, -, -, hy⟩ := (h'.accepted (hm.1.subset ha)).request
  have := hm.2
  rw [hx, hy] at this ⊢
  obtain ⟨u, hu⟩ := this
  simp only [List.cons_append, List.nil_append, List.cons.injEq] at hu
  rw [hu.1]

/-- What is known about a session of a server at any time, until its socket is closed. -/
structure SOk (g : WsServer.Cfg Z) (c : HttpRequest.Cfg) (x : SNode Z L) : Prop where
  base : WsServer.Inv x.base
  trace : x.http.trace = []
  ack : x.http.ack = x.base.ws.upgraded
  acts : .switch ∉ x.acts
  reads : x.base.reads g c x.http x.acts = some x.w

theorem SOk.inv {g : WsServer.Cfg Z} {c : HttpRequest.Cfg} {x : SNode Z L} (h : SOk g c x) : WsServer.Inv x.w := WsServer.inv_reads g c _ _ h.base _ h.trace h.ack _ h.acts h.reads

theorem sok_init (g : WsServer.Cfg Z) (c : HttpRequest.Cfg) (resume : WsServer.W Z → HttpRequest.Parser × L.σ) : SOk g c (server g c L resume).init :=
  ⟨WsServer.inv_start g, rfl, rfl, by simp [server], rfl⟩

theorem sok_read {g : WsServer.Cfg Z} {c : HttpRequest.Cfg} {resume : WsServer.W Z → HttpRequest.Parser × L.σ} {x y : SNode Z L} {d : Bytes} {e : Bool} {evs : List (Event WMsg)} (hx : SOk g c x)
    (h : x.read g c resume d e = some (y, evs)) : SOk g c y ∧ SMore x.w y.w ∧ evs = events (y.w.addresses.getLastD []) x.w.ws.trace y.w.ws.trace := by
  unfold SNode.read at h
  simp only at h
  by_cases ht : x.w.threw = true
  · rw [if_pos ht] at h
    split at h
    · cases h
    · rename_i w hw
      simp only [Option.some.injEq, Prod.mk.injEq] at h
      obtain ⟨rfl, rfl⟩ := h
      have hi : WsServer.Inv ({ x.w with threw := false } : WsServer.W Z) := hx.inv.mono rfl rfl rfl rfl rfl ⟨[], by simp⟩
      refine ⟨⟨hi, rfl, rfl, by simp, hw⟩, ?_, rfl⟩
      have := smore_reads_nil g c ({ x.w with threw := false } : WsServer.W Z) _ rfl _ _ hw
      exact this
  · rw [if_neg ht] at h
    split at h
    · cases h
    · rename_i w hw
      simp only [Option.some.injEq, Prod.mk.injEq] at h
      obtain ⟨rfl, rfl⟩ := h
      exact ⟨⟨hx.base, hx.trace, hx.ack, by simp [hx.acts], hw⟩, (smore_reads g c _ _ hx.trace _ _ _ _ hx.reads hw).2, rfl⟩

/-- Whether a socket has been closed -/
def isClosed (h : List In) : Bool := h.any (·.isClosed)

/-- What a session has pushed is what its history says. -/
theorem server_outputs {g : WsServer.Cfg Z} {c : HttpRequest.Cfg} {resume : WsServer.W Z → HttpRequest.Parser × L.σ} (h : List In) (hh : Ordered h) {x : SNode Z L} {evs : List (Event WMsg)}
    (ho : outputs (server g c L resume) (server g c L resume).init h = some (x, evs)) :
    ∃ y : SNode Z L, SOk g c y ∧ x.w = (if isClosed h then y.w.closed g else y.w) ∧ (isClosed h = false → x = y) ∧ evs = x.w.ws.trace.flatMap (event (x.w.addresses.getLastD [])) := by
  induction h using snocInd generalizing x evs with
  | nil =>
    simp only [outputs, Option.some.injEq, Prod.mk.injEq] at ho
    obtain ⟨rfl, rfl⟩ := ho
    exact ⟨_, sok_init g c resume, rfl, fun _ => rfl, rfl⟩
  | snoc h i ih =>
    obtain ⟨hp, ha⟩ := EasyHttp.ordered_pre hh
    obtain ⟨y, e1, e2, h1, h2, rfl⟩ := outputs_unsnoc ho
    obtain ⟨z, h3, h4, h5, h6⟩ := ih hp h1
    have hrd : ∀ d e, i.isClosed = false → isClosed h = false → y.read g c resume d e = some (x, e2) → _ := fun d e hi hc hr => by
      have hc' : isClosed (h ++ [i]) = false := by unfold isClosed at hc ⊢; rw [List.any_append, hc]; simp [hi]
      have hz := h5 hc
      subst hz
      obtain ⟨r1, r2, r3⟩ := sok_read h3 hr
      exact (⟨x, r1, by rw [hc']; rfl, fun _ => rfl, by
        rw [h6, r3]
        exact events_split _ _ _ _ r2.1 (same_address h3.inv r1.inv r2)⟩ : ∃ y : SNode Z L, SOk g c y ∧ x.w = (if isClosed (h ++ [i]) then y.w.closed g else y.w) ∧ (isClosed (h ++ [i]) = false → x = y) ∧
          e1 ++ e2 = x.w.ws.trace.flatMap (event (x.w.addresses.getLastD [])))
    cases i with
    | connected =>
      simp only [admits, List.isEmpty_iff] at ha
      subst ha
      simp only [server, Option.some.injEq, Prod.mk.injEq] at h2
      obtain ⟨rfl, rfl⟩ := h2
      exact ⟨z, h3, h4, h5, by simpa using h6⟩
    | closed r =>
      simp only [server, Option.some.injEq, Prod.mk.injEq] at h2
      obtain ⟨rfl, rfl⟩ := h2
      simp only [admits, Bool.not_eq_true'] at ha
      have hz := h5 ha
      subst hz
      refine ⟨y, h3, ?_, ?_, ?_⟩
      · rw [if_pos (by simp [isClosed, In.isClosed])]
      · intro hc; simp [isClosed, In.isClosed] at hc
      · rw [h6]
        exact events_split _ _ _ _ (smore_close g y.w _ _).1 (fun _ => rfl)
    | read d =>
      simp only [admits, Bool.and_eq_true, Bool.not_eq_true'] at ha
      exact hrd d false rfl ha.2 h2
    | eof =>
      simp only [admits, Bool.and_eq_true, Bool.not_eq_true'] at ha
      exact hrd [] true rfl ha.2 h2

/-- Without an exception, reads are collected. -/
theorem threw_of (g : WsServer.Cfg Z) (t : List HttpServer.Ev) : ∀ w : WsServer.W Z, w.threw = true → WsServer.W.of g w t = w := by
  induction t with
  | nil => intro w _; rfl
  | cons e t ih =>
    intro w h
    show WsServer.W.of g (w.step g e) t = w
    have : w.step g e = w := by unfold WsServer.W.step; rw [if_pos h]
    rw [this]; exact ih w h

theorem serve_pre (g : WsServer.Cfg Z) (c : HttpRequest.Cfg) (L : Lib) (xs ys : List HttpServer.Act) (w' : WsServer.W Z) (h : WsServer.serve g c L (xs ++ ys) = some w') (ht : w'.threw = false) :
    ∃ w, WsServer.serve g c L xs = some w ∧ w.threw = false := by
  unfold WsServer.serve WsServer.W.reads at h ⊢
  rw [HttpServer.run_append] at h
  cases hx : HttpServer.run (WsServer.app g (.start g)) c ({} : HttpServer.Sess L) [] xs with
  | none => rw [hx] at h; cases h
  | some r =>
    obtain ⟨s1, b1⟩ := r
    rw [hx] at h
    simp only at h
    cases hy : HttpServer.run (WsServer.app g (.start g)) c s1 b1 ys with
    | none => rw [hy] at h; cases h
    | some r =>
      obtain ⟨s2, b2⟩ := r
      rw [hy] at h
      simp only [Option.some.injEq] at h
      refine ⟨_, rfl, ?_⟩
      subst h
      simp only [Bool.or_eq_false_iff] at ht ⊢
      obtain ⟨t, e⟩ := HttpServer.run_adds _ _ _ hy
      refine ⟨?_, ?_⟩
      · rw [← Bool.not_eq_true]
        intro hc
        have := threw_of g t _ hc
        have e2 : WsServer.W.of g (.start g) s2.trace = WsServer.W.of g (WsServer.W.of g (.start g) s1.trace) t := by rw [← e]; simp [WsServer.W.of, List.foldl_append]
        rw [e2, this, hc] at ht
        cases ht.1
      · rw [← Bool.not_eq_true]
        intro hc
        rw [HttpServer.run_failed _ _ _ hc hy] at ht
        cases ht.2

theorem server_collects (g : WsServer.Cfg Z) (c : HttpRequest.Cfg) (resume : WsServer.W Z → HttpRequest.Parser × L.σ) (ds : List Bytes) : ∀ w, WsServer.serve g c L (ds.map (.receive · false)) = some w → w.threw = false →
    ∃ evs, outputs (server g c L resume) (server g c L resume).init (.connected :: ds.map .read) = some ({ base := .start g, acts := ds.map (.receive · false), w := w }, evs) := by
  induction ds using snocInd with
  | nil => intro w h _; cases h; exact ⟨[], rfl⟩
  | snoc ds d ih =>
    intro w h ht
    rw [List.map_append] at h
    obtain ⟨w1, h1, h2⟩ := serve_pre g c L _ _ w h ht
    obtain ⟨evs, he⟩ := ih w1 h1 h2
    have := outputs_snoc (C := server g c L resume) (i := .read d) (z := { base := .start g, acts := (ds ++ [d]).map (.receive · false), w := w }) (b := events (w.addresses.getLastD []) w1.ws.trace w.ws.trace) he (by
      show SNode.read g c resume _ d false = _
      unfold SNode.read
      simp only [h2, Bool.false_eq_true, if_false]
      have : (WsServer.W.start g).reads g c ({} : HttpServer.Sess L) (ds.map (.receive · false) ++ [.receive d false]) = some w := h
      rw [this]
      simp; rfl)
    have e : (In.connected :: (ds ++ [d]).map .read) = In.connected :: ds.map .read ++ [.read d] := by simp
    rw [e]
    exact ⟨_, this⟩

/-! ### Histories -/

/-- The opening comes at most once, and messages come after it. -/
def Sound (t : List Ws.Ev) : Prop := t.count .accepted ≤ 1 ∧ ∀ pre op b post, t = pre ++ .finish op b :: post → .accepted ∈ pre

theorem Sound.tail {t m : List Ws.Ev} (h : Sound t) (h1 : .accepted ∉ m) (h2 : ∀ op b, .finish op b ∉ m) : Sound (t ++ m) := by
  refine ⟨by rw [List.count_append, List.count_eq_zero_of_not_mem h1]; exact h.1, fun pre op b post e => ?_⟩
  rcases List.append_eq_append_iff.1 e with ⟨u, e1, e2⟩ | ⟨u, e1, e2⟩
  · exact absurd (by rw [e2]; simp) (h2 op b)
  · cases u with
    | nil => exact absurd (by rw [← List.nil_append m, ← e2]; simp) (h2 op b)
    | cons x u =>
      simp only [List.cons_append, List.cons.injEq] at e2
      obtain ⟨rfl, -⟩ := e2
      exact h.2 pre op b u e1

theorem shut_down_tail (env : Ws.Env Z) (s : Ws.Session Z) (n : Nat) (r : Bytes) : ∃ m, (s.ws_shut_down env n r).trace = s.trace ++ m ∧ ∀ x ∈ m, x = .shut_down ∨ ∃ b, x = .sent b := by
  unfold Ws.Session.ws_shut_down
  split
  · exact ⟨[.shut_down], rfl, by simp⟩
  · unfold Ws.Session.send_raw
    split
    · exact ⟨[.shut_down], rfl, by simp⟩
    · exact ⟨[.sent _, .shut_down], by simp only [Ws.Session.push, List.append_assoc]; rfl, by simp⟩

/-- What a close adds. -/
theorem close_tail (env : Ws.Env Z) (s : Ws.Session Z) (n : Nat) (r : Bytes) : ∃ m, (s.close_once env n r).1.trace = s.trace ++ m ∧ .accepted ∉ m ∧ (∀ op b, .finish op b ∉ m) ∧
    ∀ a, m.flatMap (event a) = if s.closure_notified then [] else [closing n r] := by
  unfold Ws.Session.close_once
  split
  · exact ⟨[], by simp, by simp, by simp, by simp⟩
  · simp only
    split
    · exact ⟨[.close n r], rfl, by simp, by simp, by simp [event]⟩
    · obtain ⟨m, h1, h2⟩ := shut_down_tail env (({ s with closure_notified := true } : Ws.Session Z).push (.close n r)) 1000 []
      refine ⟨.close n r :: m, by rw [h1]; simp [Ws.Session.push], ?_, ?_, ?_⟩
      · intro h
        rcases List.mem_cons.mp h with h | h
        · cases h
        · rcases h2 _ h with h | ⟨b, h⟩ <;> cases h
      · intro op b h
        rcases List.mem_cons.mp h with h | h
        · cases h
        · rcases h2 _ h with h | ⟨b, h⟩ <;> cases h
      · intro a
        have : m.flatMap (event a) = [] := by
          rw [List.flatMap_eq_nil_iff]
          intro x hx
          rcases h2 x hx with rfl | ⟨b, rfl⟩ <;> rfl
        rw [List.flatMap_cons, this]
        rfl

/-- Every call pushes at most one event. -/
theorem event_cases (a : Bytes) (x : Ws.Ev) : (event a x = [] ∧ x ≠ .accepted ∧ x.isClose = false) ∨ (∃ e, event a x = [e] ∧ (isOpen e = true ↔ x = .accepted) ∧ (isMessage e = true → ∃ op b, x = .finish op b) ∧ (e.ty = .close ↔ x.isClose = true)) := by
  cases x with
  | data op b => left; exact ⟨rfl, by simp, rfl⟩
  | sent b => left; exact ⟨rfl, by simp, rfl⟩
  | shut_down => left; exact ⟨rfl, by simp, rfl⟩
  | close n r => right; exact ⟨_, rfl, by simp [isOpen, closing], by simp [isMessage, closing], by simp [closing, Ws.Ev.isClose]⟩
  | accepted => right; exact ⟨_, rfl, by simp [isOpen], by simp [isMessage], by simp [Ws.Ev.isClose]⟩
  | finish op b =>
    show (message op b = [] ∧ _) ∨ ∃ e, message op b = [e] ∧ _
    unfold message
    split
    · right; exact ⟨_, rfl, by simp [isOpen], fun _ => ⟨_, _, rfl⟩, by simp [Ws.Ev.isClose]⟩
    · split
      · right; exact ⟨_, rfl, by simp [isOpen], fun _ => ⟨_, _, rfl⟩, by simp [Ws.Ev.isClose]⟩
      · split
        · right; exact ⟨_, rfl, by simp [isOpen], fun _ => ⟨_, _, rfl⟩, by simp [Ws.Ev.isClose]⟩
        · left; exact ⟨rfl, by simp, rfl⟩

theorem flat_split (a : Bytes) (t : List Ws.Ev) {pre post : List (Event WMsg)} {e : Event WMsg} (h : t.flatMap (event a) = pre ++ e :: post) :
    ∃ tp x tq, t = tp ++ x :: tq ∧ event a x = [e] ∧ pre = tp.flatMap (event a) ∧ post = tq.flatMap (event a) := by
  induction t generalizing pre with
  | nil => simp at h
  | cons y t ih =>
    rw [List.flatMap_cons] at h
    rcases event_cases a y with ⟨h1, -⟩ | ⟨e', h1, -⟩
    · rw [h1, List.nil_append] at h
      obtain ⟨tp, x, tq, rfl, h2, h3, h4⟩ := ih h
      exact ⟨y :: tp, x, tq, rfl, h2, by rw [List.flatMap_cons, h1, h3]; rfl, h4⟩
    · rw [h1] at h
      cases pre with
      | nil =>
        simp only [List.cons_append, List.nil_append, List.cons.injEq] at h
        obtain ⟨rfl, rfl⟩ := h
        exact ⟨[], y, t, rfl, h1, rfl, rfl⟩
      | cons z pre =>
        simp only [List.cons_append, List.nil_append, List.cons.injEq] at h
        obtain ⟨rfl, h⟩ := h
        obtain ⟨tp, x, tq, rfl, h2, h3, h4⟩ := ih h
        exact ⟨y :: tp, x, tq, rfl, h2, by rw [List.flatMap_cons, h1, h3]; rfl, h4⟩

theorem sound_once {t : List Ws.Ev} (a : Bytes) (h : Sound t) : (t.flatMap (event a)).countP isOpen ≤ 1 := by
  have : (t.flatMap (event a)).countP isOpen = t.count .accepted := by
    clear h
    induction t with
    | nil => rfl
    | cons x t ih =>
      rw [List.flatMap_cons, List.countP_append, ih, List.count_cons]
      rcases event_cases a x with ⟨h1, h2, -⟩ | ⟨e, h1, h2, -⟩
      · rw [h1]; simp [h2]
      · rw [h1]
        by_cases hx : x = .accepted
        · rw [List.countP_cons_of_pos (h2.2 hx)]; simp [hx, Nat.add_comm]
        · rw [List.countP_cons_of_neg (fun h => hx (h2.1 h))]; simp [hx]
  rw [this]; exact h.1

theorem sound_messages {t : List Ws.Ev} (a : Bytes) (h : Sound t) {pre post : List (Event WMsg)} {e : Event WMsg} (ht : t.flatMap (event a) = pre ++ e :: post) (he : isMessage e = true) : ∃ o ∈ pre, isOpen o = true := by
  obtain ⟨tp, x, tq, rfl, h2, h3, h4⟩ := flat_split a t ht
  rcases event_cases a x with ⟨h1, -⟩ | ⟨e', h1, h5, h6, -⟩
  · rw [h1] at h2; cases h2
  · rw [h1] at h2
    cases h2
    obtain ⟨op, b, rfl⟩ := h6 he
    have := h.2 tp op b tq rfl
    exact ⟨opened a, by rw [h3]; exact List.mem_flatMap.mpr ⟨_, this, by simp [event, opened]⟩, rfl⟩

theorem shut_ends {s : Ws.Session Z} (a : Bytes) (h : Ws.Shut s) : ∃ pre e post, s.trace.flatMap (event a) = pre ++ e :: post ∧ e.ty = .close ∧ (∀ x ∈ pre, x.ty ≠ .close) ∧ ∀ x ∈ post, isOpen x = true := by
  obtain ⟨-, u, n, r, v, e, h1, h2⟩ := h
  refine ⟨u.flatMap (event a), closing n r, v.flatMap (event a), by rw [e]; simp [event], rfl, fun x hx => ?_, fun x hx => ?_⟩
  · obtain ⟨y, hy, hx⟩ := List.mem_flatMap.mp hx
    rcases event_cases a y with ⟨h3, -⟩ | ⟨e', h3, -, -, h4⟩
    · rw [h3] at hx; cases hx
    · rw [h3, List.mem_singleton] at hx
      subst hx
      intro hc
      have := h1 y hy
      rw [h4.1 hc] at this; cases this
  · obtain ⟨y, hy, hx⟩ := List.mem_flatMap.mp hx
    have := h2 y hy
    cases y <;> first | (simp [event] at hx; done) | (simp [Ws.Ev.isCallback] at this; done) | (simp [event] at hx; subst hx; rfl)

theorem inv_sound {w : WsServer.W Z} (h : WsServer.Inv w) : Sound w.ws.trace := ⟨h.once, fun _ op b _ ht => h.messages ht ⟨op, b, .inr rfl⟩⟩

/-! ### Clients -/

theorem cmore_close (g : WsClient.Cfg Z) (w : WsClient.W Z) (n : Nat) (r : Bytes) : w.ws.trace <+: (w.close g n r).ws.trace := by
  obtain ⟨-, m, h, -⟩ := Ws.grows_close_once g.env n r (Ws.Grows.refl w.ws)
  exact ⟨m, h.symm⟩

theorem cmore_shaken (g : WsClient.Cfg Z) (w : WsClient.W Z) (p : Ws.Parser) : w.ws.trace <+: (w.shaken g p).ws.trace := by
  unfold WsClient.W.shaken
  simp only
  split
  · exact cmore_close g ({ w with ws := { w.ws with parser := p } } : WsClient.W Z) 1002 (Ws.descBytes p.error_desc)
  · exact ⟨_, rfl⟩

theorem cmore_step (g : WsClient.Cfg Z) (w : WsClient.W Z) (e : HttpClient.Ev) : w.ws.trace <+: (w.step g e).ws.trace := by
  unfold WsClient.W.step
  split
  · exact List.prefix_refl _
  · cases e with
    | headers h => exact List.prefix_refl _
    | stream d => exact List.prefix_refl _
    | finish h d =>
      simp only
      unfold WsClient.W.finish
      simp only
      split
      · exact List.prefix_refl _
      · rename_i p hp
        have := cmore_shaken g ({ w with calls := w.calls + 1, heads := w.heads ++ [h], statuses := w.statuses ++ [h.status] } : WsClient.W Z) p
        split <;> exact this
    | shut => exact ⟨_, rfl⟩
    | abort => exact List.prefix_refl _
    | upgraded d e =>
      obtain ⟨-, m, h, -⟩ := Ws.grows_stream g.env (g.addr (w.calls + 1)) w.ws d
      exact ⟨m, h.symm⟩

theorem cmore_of (g : WsClient.Cfg Z) (t : List HttpClient.Ev) : ∀ w : WsClient.W Z, w.ws.trace <+: (WsClient.W.of g w t).ws.trace := by
  induction t with
  | nil => intro w; exact List.prefix_refl _
  | cons e t ih => intro w; exact (cmore_step g w e).trans (ih (w.step g e))

/-- Reading more extends the history. -/
theorem cmore_reads (g : WsClient.Cfg Z) (c : HttpRequest.Cfg) (b : WsClient.W Z) (s : HttpClient.Sess L) (xs ys : List HttpClient.Act) (w w' : WsClient.W Z) (h : b.reads g c s xs = some w)
    (h' : b.reads g c s (xs ++ ys) = some w') : w.ws.trace <+: w'.ws.trace := by
  unfold WsClient.W.reads at h h'
  rw [HttpClient.run_append] at h'
  cases hx : HttpClient.run WsClient.app c s [] xs with
  | none => rw [hx] at h; cases h
  | some r =>
    obtain ⟨s1, b1⟩ := r
    rw [hx] at h h'
    simp only [Option.some.injEq] at h
    simp only at h'
    cases hy : HttpClient.run WsClient.app c s1 b1 ys with
    | none => rw [hy] at h'; cases h'
    | some r =>
      obtain ⟨s2, b2⟩ := r
      rw [hy] at h'
      simp only [Option.some.injEq] at h'
      subst h h'
      obtain ⟨t, ht⟩ := HttpClient.run_adds _ _ _ hy
      have := cmore_of g t (WsClient.W.of g b s1.trace)
      have e : WsClient.W.of g b s2.trace = WsClient.W.of g (WsClient.W.of g b s1.trace) t := by
        rw [← ht]; simp [WsClient.W.of, List.foldl_append]
      rw [e]
      exact this

theorem cmore_reads_nil (g : WsClient.Cfg Z) (c : HttpRequest.Cfg) (b : WsClient.W Z) (s : HttpClient.Sess L) (xs : List HttpClient.Act) (w : WsClient.W Z) (h : b.reads g c s xs = some w) : b.ws.trace <+: w.ws.trace := by
  unfold WsClient.W.reads at h
  split at h
  · cases h
  · cases h; exact cmore_of g _ b

/-- What is known about a session of a client at any time, until its socket is closed. -/
structure COk (g : WsClient.Cfg Z) (c : HttpRequest.Cfg) (x : CNode Z L) : Prop where
  base : WsClient.Inv g x.base
  trace : x.http.trace = []
  ack : x.http.ack = x.base.ws.upgraded
  reads : x.base.reads g c x.http x.acts = some x.w

theorem COk.inv {g : WsClient.Cfg Z} {c : HttpRequest.Cfg} {x : CNode Z L} (h : COk g c x) : WsClient.Inv g x.w := WsClient.inv_reads g c _ _ h.base _ h.trace h.ack _ h.reads

theorem cok_init (g : WsClient.Cfg Z) (c : HttpRequest.Cfg) (uri : Bytes × Bytes × Bytes × Bytes) (resume : WsClient.W Z → HttpResponse.Parser × L.σ) : COk g c (client g c L uri resume).init :=
  ⟨WsClient.inv_start g, rfl, rfl, rfl⟩

theorem cok_read {g : WsClient.Cfg Z} {c : HttpRequest.Cfg} {addr : Bytes} {resume : WsClient.W Z → HttpResponse.Parser × L.σ} {x y : CNode Z L} {d : Bytes} {e : Bool} {evs : List (Event WMsg)} (hx : COk g c x)
    (h : x.read g c addr resume d e = some (y, evs)) : COk g c y ∧ x.w.ws.trace <+: y.w.ws.trace ∧ evs = events addr x.w.ws.trace y.w.ws.trace := by
  unfold CNode.read at h
  simp only at h
  by_cases ht : x.w.threw = true
  · rw [if_pos ht] at h
    split at h
    · cases h
    · rename_i w hw
      simp only [Option.some.injEq, Prod.mk.injEq] at h
      obtain ⟨rfl, rfl⟩ := h
      have hi : WsClient.Inv g ({ x.w with threw := false } : WsClient.W Z) := hx.inv.mono rfl ⟨[], by simp⟩ ⟨[], by simp⟩
      refine ⟨⟨hi, rfl, rfl, hw⟩, ?_, rfl⟩
      have := cmore_reads_nil g c ({ x.w with threw := false } : WsClient.W Z) _ _ _ hw
      exact this
  · rw [if_neg ht] at h
    split at h
    · cases h
    · rename_i w hw
      simp only [Option.some.injEq, Prod.mk.injEq] at h
      obtain ⟨rfl, rfl⟩ := h
      exact ⟨⟨hx.base, hx.trace, hx.ack, hw⟩, cmore_reads g c _ _ _ _ _ _ hx.reads hw, rfl⟩

/-- What a session has pushed is what its history says. -/
theorem client_outputs {g : WsClient.Cfg Z} {c : HttpRequest.Cfg} {uri : Bytes × Bytes × Bytes × Bytes} {resume : WsClient.W Z → HttpResponse.Parser × L.σ} (h : List In) (hh : Ordered h) {x : CNode Z L}
    {evs : List (Event WMsg)} (ho : outputs (client g c L uri resume) (client g c L uri resume).init h = some (x, evs)) :
    ∃ y : CNode Z L, COk g c y ∧ x.w = (if isClosed h then y.w.closed g else y.w) ∧ (isClosed h = false → x = y) ∧ evs = x.w.ws.trace.flatMap (event (client.addr uri)) := by
  induction h using snocInd generalizing x evs with
  | nil =>
    simp only [outputs, Option.some.injEq, Prod.mk.injEq] at ho
    obtain ⟨rfl, rfl⟩ := ho
    exact ⟨_, cok_init g c uri resume, rfl, fun _ => rfl, rfl⟩
  | snoc h i ih =>
    obtain ⟨hp, ha⟩ := EasyHttp.ordered_pre hh
    obtain ⟨y, e1, e2, h1, h2, rfl⟩ := outputs_unsnoc ho
    obtain ⟨z, h3, h4, h5, h6⟩ := ih hp h1
    have hrd : ∀ d e, i.isClosed = false → isClosed h = false → y.read g c (client.addr uri) resume d e = some (x, e2) → _ := fun d e hi hc hr => by
      have hc' : isClosed (h ++ [i]) = false := by unfold isClosed at hc ⊢; rw [List.any_append, hc]; simp [hi]
      have hz := h5 hc
      subst hz
      obtain ⟨r1, r2, r3⟩ := cok_read h3 hr
      exact (⟨x, r1, by rw [hc']; rfl, fun _ => rfl, by
        rw [h6, r3]
        exact events_split _ _ _ _ r2 (fun _ => rfl)⟩ : ∃ y : CNode Z L, COk g c y ∧ x.w = (if isClosed (h ++ [i]) then y.w.closed g else y.w) ∧ (isClosed (h ++ [i]) = false → x = y) ∧
          e1 ++ e2 = x.w.ws.trace.flatMap (event (client.addr uri)))
    cases i with
    | connected =>
      simp only [admits, List.isEmpty_iff] at ha
      subst ha
      simp only [client, Option.some.injEq, Prod.mk.injEq] at h2
      obtain ⟨rfl, rfl⟩ := h2
      exact ⟨z, h3, h4, h5, by simpa using h6⟩
    | closed r =>
      simp only [client, Option.some.injEq, Prod.mk.injEq] at h2
      obtain ⟨rfl, rfl⟩ := h2
      simp only [admits, Bool.not_eq_true'] at ha
      have hz := h5 ha
      subst hz
      refine ⟨y, h3, ?_, ?_, ?_⟩
      · rw [if_pos (by simp [isClosed, In.isClosed])]
      · intro hc; simp [isClosed, In.isClosed] at hc
      · rw [h6]
        exact events_split _ _ _ _ (cmore_close g y.w _ _) (fun _ => rfl)
    | read d =>
      simp only [admits, Bool.and_eq_true, Bool.not_eq_true'] at ha
      exact hrd d false rfl ha.2 h2
    | eof =>
      simp only [admits, Bool.and_eq_true, Bool.not_eq_true'] at ha
      exact hrd [] true rfl ha.2 h2

theorem cthrew_of (g : WsClient.Cfg Z) (t : List HttpClient.Ev) : ∀ w : WsClient.W Z, w.threw = true → WsClient.W.of g w t = w := by
  induction t with
  | nil => intro w _; rfl
  | cons e t ih =>
    intro w h
    show WsClient.W.of g (w.step g e) t = w
    have : w.step g e = w := by unfold WsClient.W.step; rw [if_pos h]
    rw [this]; exact ih w h

theorem connect_pre (g : WsClient.Cfg Z) (c : HttpRequest.Cfg) (L : Lib) (xs ys : List HttpClient.Act) (w' : WsClient.W Z) (h : WsClient.connect g c L (xs ++ ys) = some w') (ht : w'.threw = false) :
    ∃ w, WsClient.connect g c L xs = some w ∧ w.threw = false := by
  unfold WsClient.connect WsClient.W.reads at h ⊢
  rw [HttpClient.run_append] at h
  cases hx : HttpClient.run WsClient.app c ({} : HttpClient.Sess L) [] xs with
  | none => rw [hx] at h; cases h
  | some r =>
    obtain ⟨s1, b1⟩ := r
    rw [hx] at h
    simp only at h
    cases hy : HttpClient.run WsClient.app c s1 b1 ys with
    | none => rw [hy] at h; cases h
    | some r =>
      obtain ⟨s2, b2⟩ := r
      rw [hy] at h
      simp only [Option.some.injEq] at h
      refine ⟨_, rfl, ?_⟩
      subst h
      simp only [Bool.or_eq_false_iff] at ht ⊢
      obtain ⟨t, e⟩ := HttpClient.run_adds _ _ _ hy
      refine ⟨?_, ?_⟩
      · rw [← Bool.not_eq_true]
        intro hc
        have := cthrew_of g t _ hc
        have e2 : WsClient.W.of g (.start g) s2.trace = WsClient.W.of g (WsClient.W.of g (.start g) s1.trace) t := by rw [← e]; simp [WsClient.W.of, List.foldl_append]
        rw [e2, this, hc] at ht
        cases ht.1
      · rw [← Bool.not_eq_true]
        intro hc
        rw [HttpClient.run_failed _ _ _ hc hy] at ht
        cases ht.2

theorem client_collects (g : WsClient.Cfg Z) (c : HttpRequest.Cfg) (uri : Bytes × Bytes × Bytes × Bytes) (resume : WsClient.W Z → HttpResponse.Parser × L.σ) (ds : List Bytes) :
    ∀ w, WsClient.connect g c L (ds.map (⟨·, false⟩)) = some w → w.threw = false →
    ∃ evs, outputs (client g c L uri resume) (client g c L uri resume).init (.connected :: ds.map .read) = some ({ base := .start g, acts := ds.map (⟨·, false⟩), w := w }, evs) := by
  induction ds using snocInd with
  | nil => intro w h _; cases h; exact ⟨[], rfl⟩
  | snoc ds d ih =>
    intro w h ht
    rw [List.map_append] at h
    obtain ⟨w1, h1, h2⟩ := connect_pre g c L _ _ w h ht
    obtain ⟨evs, he⟩ := ih w1 h1 h2
    have := outputs_snoc (C := client g c L uri resume) (i := .read d) (z := { base := .start g, acts := (ds ++ [d]).map (⟨·, false⟩), w := w }) (b := events (client.addr uri) w1.ws.trace w.ws.trace) he (by
      show CNode.read g c (client.addr uri) resume _ d false = _
      unfold CNode.read
      simp only [h2, Bool.false_eq_true, if_false]
      have : (WsClient.W.start g).reads g c ({} : HttpClient.Sess L) (ds.map (⟨·, false⟩) ++ [⟨d, false⟩]) = some w := h
      rw [this]
      simp; rfl)
    have e : (In.connected :: (ds ++ [d]).map .read) = In.connected :: ds.map .read ++ [.read d] := by simp
    rw [e]
    exact ⟨_, this⟩

theorem cinv_sound {g : WsClient.Cfg Z} {w : WsClient.W Z} (h : WsClient.Inv g w) : Sound w.ws.trace := ⟨h.once, fun _ op b _ ht => h.messages ht ⟨op, b, .inr rfl⟩⟩

/-! ### Reports -/

theorem decimal_std (n : Nat) : Http.decimal n = (Nat.toDigits 10 n).map chr := by
  have : ∀ fuel n, n ≤ fuel → Http.digits 10 (fun d => UInt8.ofNat (0x30 + d)) fuel n = (Nat.toDigits 10 n).map chr := by
    have hd : ∀ d < 10, UInt8.ofNat (0x30 + d) = chr (Nat.digitChar d) := by decide
    intro fuel
    induction fuel with
    | zero => intro n h; obtain rfl : n = 0 := by omega
              decide
    | succ f ih =>
      intro n h
      unfold Http.digits
      by_cases hn : n < 10
      · rw [if_pos hn, Nat.toDigits_of_lt_base hn, hd n hn]; rfl
      · rw [if_neg hn, Nat.toDigits_of_base_le (by decide) (by omega), ih _ (by omega), List.map_append, hd _ (by omega)]; rfl
  exact this n n (Nat.le_refl n)

theorem closing_eq (n : Nat) (r : Bytes) : closing n r = ended n r := by unfold closing ended; rw [decimal_std]

theorem message_eq (op : Nat) (b : Bytes) : message op b = shown (.message op b) := by
  unfold message shown
  split
  · rename_i h; subst h; rfl
  · split
    · rename_i h; subst h; rfl
    · split
      · rename_i h; subst h; rfl
      · simp_all

end Verif.EasyWs
