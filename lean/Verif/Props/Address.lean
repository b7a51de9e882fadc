import Verif.Proofs.Address
/-!
# C105: addresses of sockets
-/
namespace Verif.Props
open Verif.Address Verif.Spec.Address

/-- `[2001:db8::7]:258` -/
def Address.demo : Addr := ⟨[0x20, 0x01, 0x0D, 0xB8, 0, 0, 0, 0, 0, 0, 0, 0, 0, 0, 0, 7], 258⟩

/-- A thread goes on for a number of steps. -/
def Address.steps (t n : Nat) : List Act := List.replicate n (.go t none)

/-- Thread 1 asks before the socket is bound; then threads 1 and 2 ask together, and 2 gets its bytes written between those of 1; thread 3
has an error; thread 2 calls again after that. -/
def Address.acts : List Act :=
  [.call 1, .go 1 none, .go 1 none, .assign Address.demo, .call 1, .call 2, .call 3, .go 3 none, .go 3 (some .failed)] ++
  Address.steps 1 10 ++ Address.steps 2 40 ++ Address.steps 1 30 ++ [.drop, .call 2] ++ Address.steps 2 20

theorem Address.acts_only : Only Address.demo Address.acts := by
  intro a h
  simp [Address.acts, Address.steps] at h
  exact h

/-- The address, `[::]:0` and an error are all returned. -/
theorem Address.acts_trace : (run false {} Address.acts).map (·.trace) = some
    [.called 1, .asked 1 (.name unspecified), .returned 1 unspecified, .called 1, .called 2, .called 3, .asked 3 .failed, .returned 3 invalid,
     .asked 1 (.name Address.demo), .asked 2 (.name Address.demo), .returned 2 Address.demo, .returned 1 Address.demo,
     .called 2, .returned 2 Address.demo] := by decide +kernel

/-- However threads interleave, every call returns the address of the socket, or `[::]:0` if the socket had none when the system was asked, or the
invalid address if there was an error.  Partial: concurrent accesses to the same byte are undefined in C++, but have been taken to happen in some order. -/
theorem C105_right_partial (remote : Bool) (A : Addr) (hlen : A.addr.length = 16) (hport : A.port ≠ 0) (acts : List Act) (hA : Only A acts)
    (s : State) (hs : run remote {} acts = some s) (t : Nat) : Sees remote A t (of t s.trace) :=
  sees (run_inv hlen hport (init_inv remote A) hA hs) t

/-- An address that is returned was obtained from the system earlier, by some thread. -/
theorem C105_known_partial (remote : Bool) (A : Addr) (hlen : A.addr.length = 16) (hport : A.port ≠ 0) (acts : List Act) (hA : Only A acts)
    (s : State) (hs : run remote {} acts = some s) : Known A s.trace :=
  (run_inv hlen hport (init_inv remote A) hA hs).known

/-- Once a call has returned the address, all calls that begin later return it, even if the socket has been disconnected. -/
theorem C105_kept_partial (remote : Bool) (A : Addr) (hlen : A.addr.length = 16) (hport : A.port ≠ 0) (acts : List Act) (hA : Only A acts)
    (s : State) (hs : run remote {} acts = some s) : Kept A s.trace :=
  (run_inv hlen hport (init_inv remote A) hA hs).kept

/-- If the address has been returned, and no call is under way, then calls may be made by any threads later, and no two of them access the
same byte with one of them writing it. -/
theorem C105_no_race_partial (remote : Bool) (A : Addr) (hlen : A.addr.length = 16) (hport : A.port ≠ 0) (acts : List Act) (hA : Only A acts)
    (s : State) (hs : run remote {} acts = some s) (hout : ∀ t, s.pc t = .out) (u : Nat) (hu : Ev.returned u A ∈ s.trace)
    (more : List Act) (s' : State) (hs' : run remote s more = some s') : ¬ races s' :=
  settled_races (settled_run ⟨(run_inv hlen hport (init_inv remote A) hA hs).back ⟨u, hu⟩, fun t => .inl (hout t)⟩ hs')

theorem Address.portless_append {a b : List Ev} (ha : Portless a) (hb : Portless b) : Portless (a ++ b) := by
  intro pre t x post h hx
  rcases List.append_eq_append_iff.mp h with ⟨l, h1, h2⟩ | ⟨l, h1, h2⟩
  · exact hb l t x post h2 hx
  · cases l with
    | nil => exact hb [] t x post (by simpa using h2.symm) hx
    | cons y l =>
      simp only [List.cons_append, List.cons.injEq] at h2
      obtain ⟨rfl, rfl⟩ := h2
      obtain ⟨m, rfl⟩ := ha pre t x l h1 hx
      exact ⟨m ++ b, rfl⟩

theorem Address.portless_one {e : Ev} (h : ∀ t a, e = .asked t (.name a) → a.port ≠ 0) : Portless [e] := by
  intro pre t x post h1 hx
  cases pre with
  | nil => simp only [List.nil_append, List.cons.injEq] at h1; exact absurd hx (h t x h1.1)
  | cons y l => simp at h1

theorem Address.portless_two {t : Nat} {x : Answer} {r : Addr} (h : ∀ a, x = .name a → a.port = 0 → r = unspecified) : Portless [.asked t x, .returned t r] := by
  intro pre u a post h1 hx
  cases pre with
  | nil =>
    simp only [List.nil_append, List.cons.injEq, Ev.asked.injEq] at h1
    obtain ⟨⟨rfl, rfl⟩, rfl⟩ := h1
    rw [h a rfl hx]
    exact ⟨[], rfl⟩
  | cons y l =>
    simp only [List.cons_append, List.cons.injEq] at h1
    rcases l with _ | ⟨z, l⟩
    · simp at h1
    · simp at h1

theorem Address.portless_answered (remote : Bool) {s : State} (h : Portless s.trace) (t : Nat) (x : Answer) : Portless (answered remote s t x).trace := by
  cases x with
  | notConnected => simp only [answered, ret, List.append_assoc]; exact Address.portless_append h (Address.portless_two (by intro a e; cases e))
  | failed => simp only [answered, ret, List.append_assoc]; exact Address.portless_append h (Address.portless_two (by intro a e; cases e))
  | other => simp only [answered, ret, List.append_assoc]; exact Address.portless_append h (Address.portless_two (by intro a e; cases e))
  | name a =>
    simp only [answered]
    split
    · simp only [ret, List.append_assoc]; exact Address.portless_append h (Address.portless_two (by intros; rfl))
    · exact Address.portless_append h (Address.portless_one (by intro u b e; cases e; assumption))

theorem Address.portless_step (remote : Bool) {s s' : State} {a : Act} (h : Portless s.trace) (hs : step remote s a = some s') : Portless s'.trace := by
  cases a with
  | assign a => simp only [step, Option.some.injEq] at hs; subst hs; exact h
  | drop => simp only [step, Option.some.injEq] at hs; subst hs; exact h
  | call t =>
    simp only [step] at hs
    split at hs
    · simp only [Option.some.injEq] at hs; subst hs; exact Address.portless_append h (Address.portless_one (by intro u b e; cases e))
    · cases hs
  | go t e =>
    simp only [step, go] at hs
    split at hs
    · cases hs
    · simp only [Option.some.injEq] at hs; subst hs; exact h
    · split at hs
      · cases hs
      · simp only [Option.some.injEq] at hs; subst hs; exact Address.portless_answered remote h t _
      · simp only [Option.some.injEq] at hs; subst hs; exact Address.portless_answered remote h t _
    · split at hs <;> (simp only [Option.some.injEq] at hs; subst hs; exact h)
    · split at hs
      · simp only [Option.some.injEq] at hs; subst hs; exact h
      · simp only [Option.some.injEq] at hs; subst hs
        simp only [ret, List.append_nil]; exact Address.portless_append h (Address.portless_one (by intro u b e; cases e))

/-- Whatever names the socket is given, and however often: a call which is told that the port is zero returns the unspecified address. -/
theorem C105_portless (remote : Bool) (acts : List Act) (s : State) (hs : run remote {} acts = some s) : Portless s.trace := by
  suffices ∀ (acts : List Act) (s0 : State), Portless s0.trace → run remote s0 acts = some s → Portless s.trace from
    this acts {} (by intro pre t a post h; simp at h) hs
  intro acts
  induction acts with
  | nil => intro s0 h hs; simp only [run, Option.some.injEq] at hs; subst hs; exact h
  | cons a as ih =>
    intro s0 h hs
    simp only [run, Option.bind_eq_some_iff] at hs
    obtain ⟨s1, h1, h2⟩ := hs
    exact ih s1 (Address.portless_step remote h h1) h2

/-- A socket that has been bound to an address whose port is not known yet. -/
example : (run false {} [.assign ⟨Address.demo.addr, 0⟩, .call 1, .go 1 none, .go 1 none]).map (·.trace) =
    some [.called 1, .asked 1 (.name ⟨Address.demo.addr, 0⟩), .returned 1 ⟨List.replicate 16 0, 0⟩] := by decide +kernel

/-- The hypotheses are met. -/
example : ∃ s, run false {} Address.acts = some s ∧ Only Address.demo Address.acts ∧ Address.demo.addr.length = 16 ∧ Address.demo.port ≠ 0 ∧
    Sees false Address.demo 1 (of 1 s.trace) ∧ Known Address.demo s.trace ∧ Kept Address.demo s.trace ∧ Ev.returned 1 Address.demo ∈ s.trace := by
  have h := Address.acts_trace
  cases hs : run false {} Address.acts with
  | none => rw [hs] at h; simp at h
  | some s =>
    rw [hs] at h
    simp only [Option.map_some, Option.some.injEq] at h
    exact ⟨s, rfl, Address.acts_only, rfl, by decide, C105_right_partial _ _ rfl (by decide) _ Address.acts_only s hs 1,
      C105_known_partial _ _ rfl (by decide) _ Address.acts_only s hs, C105_kept_partial _ _ rfl (by decide) _ Address.acts_only s hs, by simp [h]⟩

/-- Two threads that ask for the address for the first time at the same time both write it, which C++ leaves undefined. -/
theorem C105_violated_race : ∃ acts s, Only Address.demo acts ∧ run true {} acts = some s ∧ races s := by
  refine ⟨[.assign Address.demo, .call 1, .call 2, .go 1 none, .go 2 none, .go 1 none, .go 2 none], _, ?_, rfl, 1, 2, 0, by decide, ?_, .inl ?_⟩
  · intro a h
    simpa using h
  · rfl
  · rfl

/-- A thread that has been told the address reads it while another one writes it. -/
theorem C105_violated_read : ∃ acts s, Only Address.demo acts ∧ run true {} acts = some s ∧
    ∃ i, writes s 2 = some i ∧ reads s 1 = some i := by
  refine ⟨[.assign Address.demo, .call 1, .call 2, .go 1 none, .go 2 none, .go 2 none] ++ Address.steps 1 20, _, ?_, rfl, 0, ?_, ?_⟩
  · intro a h
    simpa [Address.steps] using h
  · rfl
  · rfl

end Verif.Props
