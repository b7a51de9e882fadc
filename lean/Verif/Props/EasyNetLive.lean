import Verif.Props.EasySessionLive
import Verif.Props.EasyNet
/-!
# C129: from sockets to callbacks
-/
namespace Verif.Props
open Verif.Easy (Event Ev Sys arrivals handled received upToClose Closed Lost)
open Verif.EasyNet Verif.Live

section
variable {M : Type} [DecidableEq M] {C : Class M}

/-- The object that the network thread is working on exists. -/
def EnHeld (n : Net C) : Prop := n.todo ≠ [] → n.easy.mem (n.easy.addr n.who) = some n.who ∧ n.who < n.easy.count

theorem en_mem {s s' : Sys M} {a : Easy.Act M} (h : Easy.step s a = some s') {i : Nat} (hm : s.mem (s.addr i) = some i) (hi : i < s.count) (hn : a ≠ .free i) : s'.mem (s'.addr i) = some i ∧ i < s'.count := by
  cases a with
  | accept b =>
    simp only [Easy.step] at h
    split at h
    · cases h
    rename_i h1
    split at h
    · cases h
    cases h
    have hb : s.addr i ≠ b := by rintro rfl; rw [hm] at h1; simp at h1
    simp only
    rw [if_neg (show ¬ i = s.count by omega), if_neg hb]
    exact ⟨hm, by omega⟩
  | push sid ev fail =>
    simp only [Easy.step] at h
    split at h
    · cases h
      unfold Easy.push
      repeat' split
      all_goals exact ⟨hm, hi⟩
    · cases h
  | free sid =>
    simp only [Easy.step] at h
    split at h
    · rename_i hc
      cases h
      refine ⟨?_, hi⟩
      show (if s.addr i = s.addr sid then none else s.mem (s.addr i)) = _
      rw [if_neg]
      · exact hm
      · intro he
        rw [he, hc.1] at hm
        cases hm; exact hn rfl
    · cases h
  | loop f =>
    simp only [Easy.step] at h
    repeat' split at h
    all_goals first
      | (cases h; done)
      | skip
    cases h
    unfold Easy.loop
    dsimp only
    repeat' split
    all_goals exact ⟨hm, hi⟩
  | back f n =>
    simp only [Easy.step] at h
    repeat' split at h
    all_goals first
      | (cases h; done)
      | skip
    cases h
    unfold Easy.back
    dsimp only
    repeat' split
    all_goals exact ⟨hm, hi⟩
  | _ =>
    simp only [Easy.step] at h
    repeat' split at h
    all_goals first
      | (cases h; done)
      | (cases h; exact ⟨hm, hi⟩)

theorem en_held {n : Net C} (hr : EasyNet.Reachable n) : EnHeld n := by
  induction hr with
  | init => intro h; exact absurd rfl h
  | @step n n' a _ hs ih =>
    intro ht
    cases a with
    | easy a =>
      simp only [EasyNet.step] at hs
      split at hs
      · rename_i hmay
        split at hs
        · cases hs
        · rename_i s' h
          cases hs
          have := ih ht
          refine en_mem h this.1 this.2 ?_
          rintro rfl
          have ht : n.todo ≠ [] := ht
          simp [mayRun, ht] at hmay
      · cases hs
    | socket sid i =>
      simp only [EasyNet.step] at hs
      split at hs
      · rename_i hc
        split at hs
        · cases hs
        · cases hs
          simp only [Bool.and_eq_true, beq_iff_eq, decide_eq_true_eq] at hc
          exact ⟨hc.1.1.2, hc.1.2⟩
      · cases hs
    | push fail =>
      simp only [EasyNet.step] at hs
      split at hs
      · cases hs
      · rename_i ev r htd
        split at hs
        · cases hs
        · rename_i s' h
          cases hs
          have := ih (by rw [htd]; simp)
          exact en_mem h this.1 this.2 (by simp)

/-- What fibers and sessions do. -/
def en_exec (e : Exec (EasyNet.step (C := C))) : Exec (Easy.step (M := M)) where
  st n := (e.st n).easy
  act n := match e.act n with
    | some (.easy a) => some a
    | some (.push fail) => (e.st n).todo.head?.map fun ev => .push (e.st n).who ev fail
    | _ => none
  ok n := by
    rcases e.next n with ⟨ha, hn⟩ | ⟨a, ha, hst⟩
    · rw [ha, hn]
    · rw [ha]
      cases a with
      | easy a =>
        simp only [EasyNet.step] at hst
        repeat' split at hst
        all_goals first
          | (cases hst; done)
          | skip
        rename_i s' h
        have := Option.some.inj hst
        rw [← this]; exact h
      | socket sid i =>
        simp only [EasyNet.step] at hst
        repeat' split at hst
        all_goals first
          | (cases hst; done)
          | skip
        have := Option.some.inj hst
        rw [← this]
      | push fail =>
        simp only [EasyNet.step] at hst
        split at hst
        · cases hst
        · rename_i ev r htd
          rw [htd]
          split at hst
          · cases hst
          · rename_i s' h
            have := Option.some.inj hst
            rw [← this]; exact h

theorem en_reach {e : Exec (EasyNet.step (C := C))} (h : EasyNet.Fairly e) (n : Nat) : EasyNet.Reachable (e.st n) :=
  e.always (P := EasyNet.Reachable) 0 h.start (fun _ _ _ h1 h2 => .step h1 h2) n (Nat.zero_le _)

theorem en_easyReach {n : Net C} (hr : EasyNet.Reachable n) : Easy.Reachable n.easy := by
  induction hr with
  | init c => exact .init c
  | @step n n' a _ hs ih =>
    cases a with
    | easy a =>
      simp only [EasyNet.step] at hs
      repeat' split at hs
      all_goals first
        | (cases hs; done)
        | skip
      rename_i h
      cases hs
      exact .step ih h
    | socket sid i =>
      simp only [EasyNet.step] at hs
      repeat' split at hs
      all_goals first
        | (cases hs; done)
        | (cases hs; exact ih)
    | push fail =>
      simp only [EasyNet.step] at hs
      repeat' split at hs
      all_goals first
        | (cases hs; done)
        | skip
      rename_i h
      cases hs
      exact .step ih h

theorem en_fair {e : Exec (EasyNet.step (C := C))} (h : EasyNet.Fairly e) : Easy.Fairly (en_exec e) where
  start := en_easyReach h.start
  turns := h.turns
  resumes f n hen := by
    obtain ⟨m, hm, a, ha, rfl⟩ := h.resumes f n (fun m hm => by
      obtain ⟨k, hk, a, rfl, hs⟩ := hen m hm
      refine ⟨k, hk, _, rfl, ?_⟩
      simp only [EasyNet.step, mayRun, if_true]
      have hs : (Easy.step (e.st k).easy (.resume f)).isSome = true := hs
      cases hq : Easy.step (e.st k).easy (.resume f) with
      | none => rw [hq] at hs; cases hs
      | some s => rfl)
    exact ⟨m, hm, _, by simp only [en_exec, ha], rfl⟩
  goes f n hen := by
    obtain ⟨m, hm, a, ha, b, rfl, hb⟩ := h.goes f n (fun m hm => by
      obtain ⟨k, hk, b, hb, hs⟩ := hen m hm
      refine ⟨k, hk, _, ⟨b, rfl, hb⟩, ?_⟩
      have hmay : mayRun (e.st k) b = true := by
        rcases hb with rfl | ⟨n, rfl⟩
        · rfl
        · rfl
      simp only [EasyNet.step, hmay, if_true]
      have hs : (Easy.step (e.st k).easy b).isSome = true := hs
      cases hq : Easy.step (e.st k).easy b with
      | none => rw [hq] at hs; cases hs
      | some s => rfl)
    exact ⟨m, hm, b, by simp only [en_exec, ha], hb⟩

/-- The network thread pushes what it has to push. -/
theorem en_pushes {e : Exec (EasyNet.step (C := C))} (h : EasyNet.Fairly e) (i n : Nat) : ∃ m, n ≤ m ∧ (e.st m).todo = [] ∧ (e.st m).input i = (e.st n).input i := by
  by_cases h0 : (e.st n).todo = []
  · exact ⟨n, Nat.le_refl _, h0, rfl⟩
  have key : ∀ (s : Net C) a s', (EasyNet.Reachable s ∧ s.todo ≠ [] ∧ s.input i = (e.st n).input i) → EasyNet.step s a = some s' →
      ((EasyNet.Reachable s' ∧ s'.todo ≠ [] ∧ s'.input i = (e.st n).input i) ∧ s'.todo.length ≤ s.todo.length ∧ ((∃ fail, a = NAct.push fail) → s'.todo.length < s.todo.length)) ∨
      (s'.todo = [] ∧ s'.input i = (e.st n).input i) := by
    rintro s a s' ⟨hr, ht, hin⟩ hs
    have hr' := EasyNet.Reachable.step hr hs
    cases a with
    | easy a =>
      simp only [EasyNet.step] at hs
      repeat' split at hs
      all_goals first
        | (cases hs; done)
        | skip
      cases hs
      exact .inl ⟨⟨hr', ht, hin⟩, Nat.le_refl _, by rintro ⟨_, h⟩; cases h⟩
    | socket sid j =>
      simp only [EasyNet.step] at hs
      split at hs
      · rename_i hc
        simp [ht] at hc
      · cases hs
    | push fail =>
      simp only [EasyNet.step] at hs
      split at hs
      · cases hs
      · rename_i ev r htd
        split at hs
        · cases hs
        · cases hs
          cases r with
          | nil => exact .inr ⟨rfl, hin⟩
          | cons y r => exact .inl ⟨⟨hr', by simp, hin⟩, by rw [htd]; simp, fun _ => by rw [htd]; simp⟩
  obtain ⟨m, hm, hq⟩ := e.leads_measure (P := fun s => EasyNet.Reachable s ∧ s.todo ≠ [] ∧ s.input i = (e.st n).input i) (Q := fun s => s.todo = [] ∧ s.input i = (e.st n).input i)
    (fun s => s.todo.length) h.pushes (fun s a s' hp hs => (key s a s' hp hs).imp (fun g => ⟨g.1, g.2.1⟩) id)
    (fun s hp => by
      have := en_held hp.1 hp.2.1
      obtain ⟨ev, r, htd⟩ := List.exists_cons_of_ne_nil hp.2.1
      refine ⟨.push .no, ⟨_, rfl⟩, ?_⟩
      simp only [EasyNet.step, htd, Easy.step]
      rw [if_pos this]
      rfl)
    (fun s a s' hp ht hs => (key s a s' hp hs).imp (fun g => ⟨g.1, g.2.2 ht⟩) id) n ⟨en_reach h n, h0, rfl⟩
  exact ⟨m, hm, hq⟩

/-- C129.  Everything that the session makes of what has happened to its socket, up to a closure, is passed to the callback eventually, unless memory runs out, or the server is stopped.
PARTIAL: see `C39_reuse`. -/
theorem C129_sockets_partial {e : Exec (EasyNet.step (C := C))} (h : EasyNet.Fairly e) (hcare : (e.st 0).easy.careful = true) {i n : Nat} (hi : i < (e.st n).easy.count) :
    ∃ x evs m, outputs C C.init ((e.st n).input i) = some (x, evs) ∧ n ≤ m ∧ (upToClose evs <+: handled (e.st m).easy.trace i ∨ Lost (e.st m).easy.trace i) := by
  have later : ∀ {a b : Nat}, a ≤ b → EsMono (e.st a).easy (e.st b).easy i := fun h => es_later (e := en_exec e) i h
  have hca : ∀ j, (e.st j).easy.careful = true := fun j => (later (Nat.zero_le j)).careful.trans hcare
  obtain ⟨n', hn', ht, hin⟩ := en_pushes h i n
  have hv := ninv (en_reach h n') (hca n')
  have ho := hv.out i
  rw [ht, ite_self, List.append_nil, hin] at ho
  have hi' := Nat.lt_of_lt_of_le hi (later hn').count
  rcases (Easy.inv hv.easy (hca n')).compl i hi' with ⟨q, hq, hs⟩ | hcl | hl
  · obtain ⟨m, hm, hd⟩ := C129_events_partial (en_fair h) hcare (i := i) (n := n') hi'
    refine ⟨_, _, m, ho, by omega, ?_⟩
    rw [← hv.noted.all i hi' ⟨q, hq, hs⟩]
    exact hd
  · refine ⟨_, _, n', ho, hn', .inl ?_⟩
    obtain ⟨ev, he, hec⟩ := hcl
    obtain ⟨a, b, hab⟩ := List.append_of_mem he
    have hp := C39_order_partial hv.easy (hca n') i
    have hb : b = [] := hp.2 a ev b hab hec
    subst hb
    obtain ⟨r, hr⟩ := hp.1.trans (hv.noted.pre i)
    have hdl := ((Easy.inv hv.easy (hca n')).pre i).2
    rw [hab, List.dropLast_concat] at hdl
    rw [← hr, hab, List.append_assoc, List.singleton_append, upToClose_append r hdl hec]
    exact List.prefix_rfl
  · exact ⟨_, _, n', ho, hn', .inr hl⟩

end

/-- C129.  For streams: every byte that has been read from the socket is passed to the callback eventually, in order, and so are the opening, the end of the stream and the closure, unless memory
runs out, or the server is stopped.  PARTIAL: see `C39_reuse`. -/
theorem C129_stream_partial {e : Exec (EasyNet.step (C := EasyStream.tcp))} (h : EasyNet.Fairly e) (hcare : (e.st 0).easy.careful = true) {i n : Nat} (hi : i < (e.st n).easy.count) :
    ∃ m, n ≤ m ∧ ((((e.st n).input i).map shown <+: handled (e.st m).easy.trace i ∧ bytes ((e.st n).input i) <+: received (e.st m).easy.trace i) ∨ Lost (e.st m).easy.trace i) := by
  obtain ⟨x, evs, m, ho, hm, hd⟩ := C129_sockets_partial h hcare hi
  refine ⟨m, hm, hd.imp (fun hd => ?_) id⟩
  have h2 := tcp_outputs ((e.st n).input i)
  rw [show (EasyStream.tcp).init = () from rfl, h2] at ho
  have h3 := (Prod.mk.inj (Option.some.inj ho)).2
  have hca : (e.st n).easy.careful = true := (es_later (e := en_exec e) i (Nat.zero_le n)).careful.trans hcare
  rw [← h3, upToClose_ordered _ ((ninv (en_reach h n) hca).ordered i)] at hd
  refine ⟨?_, ?_⟩
  · have : ((e.st n).input i).map shown = ((e.st n).input i).map EasyStream.event := by
      apply List.map_congr_left
      intro a _
      cases a <;> rfl
    rw [this]; exact hd
  · obtain ⟨r, hr⟩ := hd
    rw [← tcp_bytes]
    unfold received
    rw [← hr, List.filter_append, List.flatMap_append]
    exact ⟨_, rfl⟩

theorem es_upTo_append {M : Type} [DecidableEq M] {a b : List (Event M)} (h : ∀ x ∈ a, x.ty ≠ .close) : a <+: upToClose (a ++ b) := by
  induction a with
  | nil => exact List.nil_prefix
  | cons x r ih =>
    simp only [List.cons_append, upToClose, if_neg (h x (by simp))]
    exact List.cons_prefix_cons.2 ⟨rfl, ih fun y hy => h y (by simp [hy])⟩

/-- C129.  For `Easy_HTTP_Server`: if all good requests of a client have arrived, in whatever pieces, then the callback is called for the opening of the session and for each of the requests
eventually, unless memory runs out, or the server is stopped.  PARTIAL: see `C95_server_partial`. -/
theorem C129_requests_partial (c : HttpRequest.Cfg) (L : HttpLib.Lib) (body : L.σ → Prop) (hL : Spec.LibOk L body) (junk : List HttpServer.Ev → Easy.Ty) (rs : List Spec.Request) (st : L.σ)
    (hr : Spec.Conversation L c L.init rs st) (hx : ∀ r ∈ rs, r.headers.is_proxy = false) (he : L.eof st = (st, .go)) {e : Exec (EasyNet.step (C := EasyHttp.server c L junk))} (h : EasyNet.Fairly e)
    (hcare : (e.st 0).easy.careful = true) {i n : Nat} (hi : i < (e.st n).easy.count) (hs : Sends (rs.flatMap Spec.Request.wire) ((e.st n).input i)) (hop : .connected ∈ (e.st n).input i)
    (hall : bytes ((e.st n).input i) = rs.flatMap Spec.Request.wire) :
    ∃ m, n ≤ m ∧ (EasyHttp.opened :: rs.map EasyHttp.asked <+: handled (e.st m).easy.trace i ∨ Lost (e.st m).easy.trace i) := by
  obtain ⟨x, evs, m, h1, hm, hd⟩ := C129_sockets_partial h hcare hi
  have hca : (e.st n).easy.careful = true := (es_later (e := en_exec e) i (Nat.zero_le n)).careful.trans hcare
  have ho := (ninv (en_reach h n) hca).ordered i
  obtain ⟨k, -, h3, h4⟩ := EasyHttp.server_reports hL junk hr hx he _ ho hs h1
  rw [h4 hall, List.take_length] at h3
  unfold EasyHttp.opens at h3
  rw [if_pos hop] at h3
  refine ⟨m, hm, hd.imp (fun hd => List.IsPrefix.trans ?_ hd) id⟩
  rw [h3]
  apply es_upTo_append (a := EasyHttp.opened :: rs.map EasyHttp.asked)
  intro e he
  simp only [List.mem_cons, List.mem_map] at he
  rcases he with rfl | ⟨r, -, rfl⟩ <;> simp [EasyHttp.opened, EasyHttp.asked]

/-- C129.  For `Easy_HTTP_Client`: if all good responses of a server have arrived, in whatever pieces, then the callback is called for the opening of the session and for each of the responses
eventually, unless memory runs out, or the client is stopped.  PARTIAL: see `C96_client_partial`. -/
theorem C129_responses_partial (c : HttpRequest.Cfg) (L : HttpLib.Lib) (body : L.σ → Prop) (hL : Spec.Client.ReplyLib L body) (rs : List Spec.Client.Response) (st : L.σ)
    (hr : Verif.Spec.Client.Conversation L c (fun _ => false) 0 L.init rs st) (he : L.eof st = (st, .go)) {e : Exec (EasyNet.step (C := EasyHttp.client c L))} (h : EasyNet.Fairly e)
    (hcare : (e.st 0).easy.careful = true) {i n : Nat} (hi : i < (e.st n).easy.count) (hs : Sends (rs.flatMap Spec.Client.Response.wire) ((e.st n).input i)) (hop : .connected ∈ (e.st n).input i)
    (hall : bytes ((e.st n).input i) = rs.flatMap Spec.Client.Response.wire) :
    ∃ m, n ≤ m ∧ (EasyHttp.connected :: rs.map EasyHttp.answered <+: handled (e.st m).easy.trace i ∨ Lost (e.st m).easy.trace i) := by
  obtain ⟨x, evs, m, h1, hm, hd⟩ := C129_sockets_partial h hcare hi
  have hca : (e.st n).easy.careful = true := (es_later (e := en_exec e) i (Nat.zero_le n)).careful.trans hcare
  have ho := (ninv (en_reach h n) hca).ordered i
  obtain ⟨k, -, h3, h4⟩ := EasyHttp.client_reports hL hr he _ ho hs h1
  rw [h4 hall, List.take_length] at h3
  unfold EasyHttp.connects at h3
  rw [if_pos hop] at h3
  refine ⟨m, hm, hd.imp (fun hd => List.IsPrefix.trans ?_ hd) id⟩
  rw [h3]
  apply es_upTo_append (a := EasyHttp.connected :: rs.map EasyHttp.answered)
  intro e he
  simp only [List.mem_cons, List.mem_map] at he
  rcases he with rfl | ⟨r, -, rfl⟩ <;> simp [EasyHttp.connected, EasyHttp.answered]

/-- Nothing is left to do. -/
def en_quiet {M : Type} [DecidableEq M] {C : Class M} (s : Net C) : Bool := s.easy.cur == none && s.easy.fibs.all (fun x => x.st == .done) && s.todo.isEmpty

/-- An execution that does these actions, after which nothing is left to do. -/
def enExec {M : Type} [DecidableEq M] {C : Class M} (as : List (NAct M)) (h : (runs (EasyNet.step (C := C)) { easy := { careful := true } } as).any en_quiet = true) : Exec (EasyNet.step (C := C)) :=
  Exec.ofRun { easy := { careful := true } } as (by
    cases hr : runs (EasyNet.step (C := C)) { easy := { careful := true } } as with
    | none => rw [hr] at h; cases h
    | some _ => rfl)

theorem enExec_fair {M : Type} [DecidableEq M] {C : Class M} (as : List (NAct M)) (h : (runs (EasyNet.step (C := C)) { easy := { careful := true } } as).any en_quiet = true) : EasyNet.Fairly (enExec as h) := by
  have fin : ∀ n, as.length ≤ n → ((enExec as h).st n).easy.cur = none ∧ (∀ x ∈ ((enExec as h).st n).easy.fibs, x.st = .done) ∧ ((enExec as h).st n).todo = [] := by
    intro n hn
    have h1 := h
    rw [← Exec.ofRun_end (step := EasyNet.step (C := C)) { easy := { careful := true } } as (by
      cases hr : runs (EasyNet.step (C := C)) { easy := { careful := true } } as with
      | none => rw [hr] at h; cases h
      | some _ => rfl) n hn] at h1
    simp only [Option.any_some, en_quiet, Bool.and_eq_true, beq_iff_eq, List.all_eq_true, List.isEmpty_iff] at h1
    exact ⟨h1.1.1, h1.1.2, h1.2⟩
  refine ⟨.init true, fun n => ⟨n + as.length, by omega, (fin _ (by omega)).1⟩, fun f n hen => ?_, fun f n hen => ?_, fun n hen => ?_⟩
  · obtain ⟨k, hk, a, rfl, he⟩ := hen (n + as.length) (by omega)
    have := fin k (by omega)
    refine absurd ⟨_, rfl, ?_⟩ (es_quiet this.1 this.2.1 f).1
    cases hq : Easy.step ((enExec as h).st k).easy (.resume f) with
    | some s => rfl
    | none => simp only [EasyNet.step, hq, ite_self] at he; cases he
  · obtain ⟨k, hk, a, ⟨b, rfl, hb⟩, he⟩ := hen (n + as.length) (by omega)
    have := fin k (by omega)
    refine absurd ⟨b, hb, ?_⟩ (es_quiet this.1 this.2.1 f).2
    cases hq : Easy.step ((enExec as h).st k).easy b with
    | some s => rfl
    | none => simp only [EasyNet.step, hq, ite_self] at he; cases he
  · obtain ⟨k, hk, a, ⟨fail, rfl⟩, he⟩ := hen (n + as.length) (by omega)
    have := fin k (by omega)
    simp only [EasyNet.step, this.2.2] at he
    cases he

theorem enStream_ok : (runs (EasyNet.step (C := EasyStream.tcp)) { easy := { careful := true } } netDemo).any en_quiet = true := by decide +kernel

/- After 10 steps, data have been read, but have not been passed to the callback. -/
example : EasyNet.Fairly (enExec netDemo enStream_ok) ∧ ((enExec netDemo enStream_ok).st 0).easy.careful = true ∧ 0 < ((enExec netDemo enStream_ok).st 10).easy.count ∧
    bytes (((enExec netDemo enStream_ok).st 10).input 0) = [1, 2, 3] ∧ received ((enExec netDemo enStream_ok).st 10).easy.trace 0 = [] ∧
    ((enExec netDemo enStream_ok).st 23).easy.trace.contains .stopped = false :=
  ⟨enExec_fair _ _, rfl, by decide +kernel, by decide +kernel, by decide +kernel, by decide +kernel⟩

theorem enServer_ok : (runs (EasyNet.step (C := EasyHttp.server tinyCfg tinyLib fun _ => .close)) { easy := { careful := true } } httpNetDemo).any en_quiet = true := by decide +kernel

/- Requests as in the example beside `C95_server_end_partial`. -/
example : EasyNet.Fairly (enExec httpNetDemo enServer_ok) ∧ ((enExec httpNetDemo enServer_ok).st 0).easy.careful = true ∧ 0 < ((enExec httpNetDemo enServer_ok).st 99).easy.count ∧
    ((enExec httpNetDemo enServer_ok).st 99).input 0 = [.connected, .read (b! "/\nHost:h\n\na"), .read (b! "b./\nHost:h\n\n"), .read (b! "ab."), .eof, .closed (b! "bye")] :=
  ⟨enExec_fair _ _, rfl, by decide +kernel, by decide +kernel⟩

def enReply : List (NAct EasyHttp.CMsg) := replyNetDemo (b! "2OK\nA:x\n\n") (b! "ab.2OK\nA:x\n\nab.") ++ [.push .no, .easy (.back 0 0), .easy (.loop 0), .easy (.back 0 0), .easy (.loop 0)]

theorem enClient_ok : (runs (EasyNet.step (C := EasyHttp.client replyCfg replyLib)) { easy := { careful := true } } enReply).any en_quiet = true := by decide +kernel

/- Responses as in the examples beside `C96_client_end_partial`. -/
example : EasyNet.Fairly (enExec enReply enClient_ok) ∧ ((enExec enReply enClient_ok).st 0).easy.careful = true ∧ 0 < ((enExec enReply enClient_ok).st 8).easy.count ∧
    ((enExec enReply enClient_ok).st 8).input 0 = [.connected, .read (b! "2OK\nA:x\n\n"), .read (b! "ab.2OK\nA:x\n\nab.")] ∧ handled ((enExec enReply enClient_ok).st 8).easy.trace 0 = [EasyHttp.connected] :=
  ⟨enExec_fair _ _, rfl, by decide +kernel, by decide +kernel, by decide +kernel⟩

end Verif.Props
