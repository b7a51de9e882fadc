import Verif.Proofs.Easy
/-!
# C39: sessions of easy servers and clients

`arrivals`, `handled`, `received` and `consumed` say what has arrived for a session, what has been handed to the callback, what data those were, and what the callback has consumed;
`running` says which fiber is in the callback.  Traces have the newest event first.

Nothing prevents a fiber from going on with the session of another object that has been created at the same address after the one it was created for has been destroyed: see `C39_reuse`.
Theorems suffixed `_partial` are about executions where that does not happen: `careful`.
-/
namespace Verif.Props
open Verif.Easy

section
variable {M : Type} [DecidableEq M]

theorem easy_run_reachable {s s' : Sys M} (h : Reachable s) : ∀ {as : List (Act M)}, run s as = some s' → Reachable s'
  | [], hr => by simp only [run, Option.some.injEq] at hr; subst hr; exact h
  | a :: as, hr => by
    simp only [run] at hr
    split at hr
    · cases hr
    · rename_i s'' hs
      exact easy_run_reachable (.step h hs) hr

def easyOpen : Event Unit := { ty := .other }
def easyData (b : Bytes) : Event Unit := { ty := .data, data := b }
def easyClose : Event Unit := { ty := .close, data := b! "bye" }

/-- Two sessions; data arrive while a callback is suspended, another fiber is started, and both sessions are closed. -/
def easyDemo : List (Act Unit) :=
  [.accept 100, .push 0 easyOpen .no, .resume 0, .loop 0, .push 0 (easyData [1, 2, 3]) .no, .yield 0, .accept 200, .push 1 easyOpen .no, .resume 1, .loop 1, .back 1 0, .loop 1,
   .push 0 (easyData [4]) .no, .resume 0, .back 0 0, .loop 0, .back 0 2, .loop 0, .yield 0, .push 0 easyClose .no, .resume 0, .back 0 2, .loop 0, .back 0 0, .loop 0,
   .push 1 easyClose .no, .resume 2, .loop 2, .back 2 0, .loop 2]

/-- C39.  What has been handed to the callback is what has arrived, each event once and in order, up to some point; nothing comes after a closure notification. -/
theorem C39_order_partial {s : Sys M} (hs : Reachable s) (hc : s.careful = true) (i : Nat) :
    handled s.trace i <+: arrivals s.trace i ∧ ∀ pre e post, handled s.trace i = pre ++ e :: post → e.ty = .close → post = [] := by
  refine ⟨((inv hs hc).pre i).1, fun pre e post h he => ?_⟩
  cases post with
  | nil => rfl
  | cons x r =>
    refine absurd he (((inv hs hc).pre i).2 e ?_)
    rw [h, List.dropLast_append_of_ne_nil (by simp)]
    simp

/-- C39.  A callback is called for an event of a session only if no callback for that session is running. -/
theorem C39_not_concurrent_partial {s : Sys M} (hs : Reachable s) (hc : s.careful = true) {post pre : List (Ev M)} {f i : Nat} {ev : Event M} {d : Bytes}
    (ht : s.trace = post ++ .called f i ev d :: pre ∨ s.trace = post ++ .responded f i ev :: pre) : running pre i = none ∧ ¬ Closed pre i := by
  rcases ht with ht | ht
  · have := (Hist.at (ht ▸ (inv hs hc).hist) : Lawful pre (.called f i ev d)); exact ⟨this.1, this.2.1⟩
  · have := (Hist.at (ht ▸ (inv hs hc).hist) : Lawful pre (.responded f i ev)); exact ⟨this.1, this.2.1⟩

/-- C39.  At any time, at most one fiber is in a callback for a session. -/
theorem C39_one_fiber_partial {s : Sys M} (hs : Reachable s) (hc : s.careful = true) {f g i : Nat} {x y : Fiber M} {ev ev' : Event M} (hf : s.fibs[f]? = some x) (hg : s.fibs[g]? = some y)
    (hx : x.st = .calling i ev) (hy : y.st = .calling i ev') : f = g := by
  have h1 := ((inv hs hc).run i f).mpr ⟨x, ev, hf, hx⟩
  have h2 := ((inv hs hc).run i g).mpr ⟨y, ev', hg, hy⟩
  rw [h1] at h2
  exact Option.some.inj h2

/-- C39.  For a stream, the callback sees all data that have arrived and that it has not consumed, in order, and other events come with their own data. -/
theorem C39_stream_partial {s : Sys M} (hs : Reachable s) (hc : s.careful = true) {post pre : List (Ev M)} {f i : Nat} {ev : Event M} {d : Bytes} (ht : s.trace = post ++ .called f i ev d :: pre) :
    if ev.ty = .data then consumed pre i ++ d = received pre i ++ ev.data else d = ev.data :=
  (Hist.at (ht ▸ (inv hs hc).hist) : Lawful pre (.called f i ev d)).2.2.2

/-- C39.  If something that has arrived has not been handed to the callback, then there is a fiber for it, unless the session has been closed or memory has run out, or the server has been
stopped. -/
theorem C39_pending_partial {s : Sys M} (hs : Reachable s) (hc : s.careful = true) {i : Nat} (hi : i < s.count) (hne : handled s.trace i ≠ arrivals s.trace i) :
    (∃ (f : Nat) (x : Fiber M), s.fibs[f]? = some x ∧ x.addr = s.addr i ∧ x.st ≠ .done) ∨ Closed s.trace i ∨ Lost s.trace i := by
  rcases (inv hs hc).compl i hi with ⟨q, hq, rfl⟩ | h | h
  · left
    have h1 := ((inv hs hc).seq _ q hq).1
    have h2 : q.events ≠ [] := by intro h; rw [h, List.append_nil] at h1; exact hne h1.symm
    exact ((inv hs hc).act _ q hq).mp ((inv hs hc).pend _ q hq h2)
  · exact Or.inr (Or.inl h)
  · exact Or.inr (Or.inr h)

theorem upToClose_of_not {l : List (Event M)} (h : ∀ e ∈ l, e.ty ≠ .close) : upToClose l = l := by
  induction l with
  | nil => rfl
  | cons e r ih => simp only [upToClose, if_neg (h e (by simp)), ih (fun x hx => h x (by simp [hx]))]

theorem upToClose_append {a : List (Event M)} {e : Event M} (b : List (Event M)) (h : ∀ x ∈ a, x.ty ≠ .close) (he : e.ty = .close) : upToClose (a ++ e :: b) = a ++ [e] := by
  induction a with
  | nil => simp [upToClose, he]
  | cons x r ih => simp only [List.cons_append, upToClose, if_neg (h x (by simp)), ih (fun y hy => h y (by simp [hy]))]

/-- C39.  Once all fibers have returned, everything that has arrived, up to a closure notification, has been handed to the callback, unless memory has run out or the server has been
stopped. -/
theorem C39_delivered_partial {s : Sys M} (hs : Reachable s) (hc : s.careful = true) (hd : ∀ x ∈ s.fibs, x.st = .done) {i : Nat} (hi : i < s.count) (hl : ¬ Lost s.trace i) :
    handled s.trace i = upToClose (arrivals s.trace i) := by
  have hp := (inv hs hc).pre i
  have hcl : Closed s.trace i → handled s.trace i = upToClose (arrivals s.trace i) := by
    rintro ⟨e, he, hec⟩
    obtain ⟨a, b, hab⟩ := List.append_of_mem he
    obtain ⟨r, hr⟩ := hp.1
    have hb : b = [] := (C39_order_partial hs hc i).2 a e b hab hec
    subst hb
    rw [hab, List.dropLast_concat] at hp
    rw [← hr, hab, List.append_assoc]
    exact (upToClose_append r hp.2 hec).symm
  rcases (inv hs hc).compl i hi with ⟨q, hq, rfl⟩ | h | h
  · have h1 := (inv hs hc).seq _ q hq
    have h2 : q.events = [] := by
      refine Classical.byContradiction fun hne => ?_
      obtain ⟨f, x, hf, _, hx⟩ := ((inv hs hc).act _ q hq).mp ((inv hs hc).pend _ q hq hne)
      exact hx (hd x (List.mem_iff_getElem?.mpr ⟨f, hf⟩))
    rw [h1.1, h2, List.append_nil]
    exact (upToClose_of_not fun e he hec => h1.2 ⟨e, he, hec⟩).symm
  · exact hcl h
  · exact absurd h hl

/-- C39.  Something that happens on a socket is ignored only after the session has been closed or memory has run out for it, or after the server has been stopped. -/
theorem C39_ignored_partial {s : Sys M} (hs : Reachable s) (hc : s.careful = true) {post pre : List (Ev M)} {i : Nat} {ev : Event M} (ht : s.trace = post ++ .ignored i ev :: pre) :
    Closed pre i ∨ Lost pre i :=
  (Hist.at (ht ▸ (inv hs hc).hist) : Lawful pre (.ignored i ev))

end

theorem easyDemo_ok : ∃ s, run { careful := true } easyDemo = some s ∧ (∀ x ∈ s.fibs, x.st = .done) ∧ s.count = 2 ∧ .stopped ∉ s.trace ∧
    s.trace.filter (fun e => match e with | .called _ _ _ _ => true | .returned _ _ _ => true | _ => false) =
      [.returned 2 1 [], .called 2 1 easyClose (b! "bye"), .returned 0 0 [], .called 0 0 easyClose (b! "bye"), .returned 0 0 [3, 4], .called 0 0 (easyData [4]) [3, 4], .returned 0 0 [1, 2],
        .called 0 0 (easyData [1, 2, 3]) [1, 2, 3], .returned 0 0 [], .returned 1 1 [], .called 1 1 easyOpen [], .called 0 0 easyOpen []] :=
  ⟨_, rfl, by decide +kernel, by decide +kernel, by decide +kernel, by decide +kernel⟩

example : ∃ s : Sys Unit, Reachable s ∧ s.careful = true ∧ (∀ x ∈ s.fibs, x.st = .done) ∧ 0 < s.count ∧ handled s.trace 0 = [easyOpen, easyData [1, 2, 3], easyData [4], easyClose] ∧
    handled s.trace 0 = upToClose (arrivals s.trace 0) := by
  refine ⟨_, easy_run_reachable (.init true) (show run _ easyDemo = some _ from rfl), rfl, ?_, ?_, ?_, ?_⟩ <;> decide +kernel

/-- A state where something is pending and a fiber is in a callback for the same session. -/
example : ∃ s : Sys Unit, Reachable s ∧ s.careful = true ∧ running s.trace 0 = some 0 ∧ handled s.trace 0 ≠ arrivals s.trace 0 ∧ ¬ Closed s.trace 0 := by
  refine ⟨_, easy_run_reachable (.init true) (show run _ (easyDemo.take 5) = some _ from rfl), rfl, ?_, ?_, ?_⟩
  · decide +kernel
  · decide +kernel
  · rintro ⟨e, he, hec⟩
    have : handled (Easy.Ev.arrived 0 (easyData [1, 2, 3]) :: .called 0 0 easyOpen [] :: .arrived 0 easyOpen :: [.accepted 0]) 0 = [easyOpen] := by decide +kernel
    replace he := this ▸ he
    simp at he
    subst he
    cases hec

/-- Something that arrives after closure is ignored. -/
example : ∃ s : Sys Unit, Reachable s ∧ s.careful = true ∧ ∃ pre, s.trace = Ev.ignored 0 easyOpen :: pre ∧ handled pre 0 = [easyClose] :=
  ⟨_, easy_run_reachable (.init true) (show run _ [.accept 100, .push 0 easyClose .no, .resume 0, .loop 0, .push 0 easyOpen .no] = some _ from rfl), rfl, _, rfl, by decide +kernel⟩

/-- C39 does not hold in general.  A fiber whose session has been closed drops its reference to the object, which is destroyed, and looks its address up in the table once more.  If in
between another object has been created at the same address and something happens on it, then the fiber handles it, while another fiber has been started for the same purpose.  Both can be
in the callback for the same session at the same time, and the second event can be handled before the first one has been. -/
theorem C39_reuse : ∃ s : Sys Unit, Reachable s ∧ ∃ x y, s.fibs[0]? = some x ∧ s.fibs[1]? = some y ∧ x.st = .calling 1 easyOpen ∧ y.st = .calling 1 (easyData [1]) :=
  ⟨_, easy_run_reachable (.init false) (show run _ [.accept 100, .push 0 easyClose .no, .resume 0, .loop 0, .back 0 0, .free 0, .accept 100, .push 1 easyOpen .no, .loop 0, .yield 0,
      .push 1 (easyData [1]) .no, .resume 1, .loop 1] = some _ from rfl), _, _, rfl, rfl, rfl, rfl⟩

/-- The type of the event for a bad HTTP request is not initialized.  If it happens to be the one of a closure notification, then the session is forgotten, and its user is never told that
it has been closed. -/
theorem C39_error_type : ∃ s : Sys Unit, Reachable s ∧ s.careful = true ∧ .stopped ∉ s.trace ∧ (∀ x ∈ s.fibs, x.st = .done) ∧ .ignored 0 easyClose ∈ s.trace ∧
    (∀ f i d, .called f i easyClose d ∉ s.trace) := by
  refine ⟨_, easy_run_reachable (.init true) (show run _ [.accept 100, .push 0 { ty := .close, error := true } .no, .resume 0, .loop 0, .back 0 0, .loop 0, .push 0 easyClose .no] = some _ from rfl),
    rfl, by decide +kernel, by decide +kernel, by decide +kernel, ?_⟩
  intro f i d h
  simp [push, alive, back, loop, setFib, setTable, easyClose, view] at h

/-- If memory runs out, then the queue is destroyed, although a callback is using its data.  (easy_tcp_server.cpp:88, 104-106, 146-152) -/
theorem C39_dangling : ∃ s : Sys Unit, Reachable s ∧ s.careful = true ∧ ∃ x, s.fibs[0]? = some x ∧ x.st = .calling 0 (easyData [1]) ∧ s.table x.addr = none :=
  ⟨_, easy_run_reachable (.init true) (show run _ [.accept 100, .push 0 (easyData [1]) .no, .resume 0, .loop 0, .push 0 easyClose .push] = some _ from rfl), rfl, _, rfl, rfl, rfl⟩

end Verif.Props
