import Verif.Spec.Address
/-!
# Proofs about addresses of sockets
-/
namespace Verif.Address
open Verif.Spec.Address

theorem snoc_split {l : List α} {e : α} {p : List α} {x : α} {q : List α} (h : l ++ [e] = p ++ x :: q) :
    (q = [] ∧ l = p ∧ e = x) ∨ ∃ q', q = q' ++ [e] ∧ l = p ++ x :: q' := by
  rcases List.eq_nil_or_concat q with rfl | ⟨q', y, rfl⟩
  · have := List.append_inj' h rfl
    simp at this
    exact .inl ⟨rfl, this⟩
  · have h' : l ++ [e] = (p ++ x :: q') ++ [y] := by simpa using h
    have := List.append_inj' h' rfl
    simp at this
    exact .inr ⟨q', by simp [this.2], this.1⟩

/-- A call of a thread began after the address had been returned. -/
def Late (A : Addr) (u : Nat) (tr : List Ev) : Prop := ∃ pre t mid post, tr = pre ++ .returned t A :: mid ++ .called u :: post

theorem late_snoc {A : Addr} {u : Nat} {tr : List Ev} {e : Ev} (h : Late A u (tr ++ [e])) :
    Late A u tr ∨ (e = .called u ∧ ∃ t, Ev.returned t A ∈ tr) := by
  obtain ⟨pre, t, mid, post, h⟩ := h
  rcases snoc_split h with ⟨-, h, e⟩ | ⟨q', -, h⟩
  · exact .inr ⟨e, t, by simp [h]⟩
  · exact .inl ⟨pre, t, mid, q', h⟩

theorem kept_snoc {A : Addr} {tr : List Ev} {e : Ev} (h : Kept A tr) (ha : ∀ u x, e = .asked u x → ¬ Late A u tr)
    (hr : ∀ u r, e = .returned u r → Late A u tr → r = A) : Kept A (tr ++ [e]) := by
  intro pre t mid u post h'
  rcases snoc_split h' with ⟨rfl, -, -⟩ | ⟨q', rfl, h''⟩
  · simp
  · obtain ⟨h1, h2⟩ := h _ _ _ _ _ h''
    have hl : Late A u tr := ⟨_, _, _, _, h''⟩
    refine ⟨fun x hx => ?_, fun r hx => ?_⟩
    · rcases List.mem_append.1 hx with hx | hx
      · exact h1 x hx
      · simp at hx
        exact ha u x hx.symm hl
    · rcases List.mem_append.1 hx with hx | hx
      · exact h2 r hx
      · simp at hx
        exact hr u r hx.symm hl

theorem known_snoc {A : Addr} {tr : List Ev} {e : Ev} (h : Known A tr)
    (hr : ∀ t, e = .returned t A → ∃ u, Ev.asked u (.name A) ∈ tr) : Known A (tr ++ [e]) := by
  intro pre t post h'
  rcases snoc_split h' with ⟨rfl, h1, h2⟩ | ⟨q', rfl, h''⟩
  · subst h1
    exact hr t h2
  · exact h _ _ _ h''

/-- The thread of an event. -/
def who : Ev → Nat
  | .called t => t
  | .asked t _ => t
  | .returned t _ => t

theorem of_eq (t : Nat) (tr : List Ev) : of t tr = tr.filter (fun e => who e == t) := by
  unfold of
  congr 1
  funext e
  cases e <;> rfl

theorem of_snoc (t : Nat) (tr : List Ev) (e : Ev) : of t (tr ++ [e]) = if who e = t then of t tr ++ [e] else of t tr := by
  simp only [of_eq, List.filter_append]
  by_cases h : who e = t <;> simp [h]

theorem of_append {t : Nat} {tr es : List Ev} (h : ∀ e ∈ es, who e ≠ t) : of t (tr ++ es) = of t tr := by
  have : es.filter (fun e => who e == t) = [] := by simpa using h
  simp [of_eq, this]

theorem late_append {A : Addr} {t : Nat} {tr es : List Ev} (h : ∀ e ∈ es, who e ≠ t) : Late A t (tr ++ es) → Late A t tr := by
  induction es generalizing tr with
  | nil => simp
  | cons e es ih =>
    intro hl
    have := ih (tr := tr ++ [e]) (fun e' he => h e' (List.mem_cons_of_mem _ he)) (by simpa using hl)
    rcases late_snoc this with h' | ⟨h', -⟩
    · exact h'
    · exact absurd (by rw [h']; rfl) (h e (List.mem_cons_self ..))

/-- What holds where a thread is. -/
def At (remote : Bool) (A : Addr) (s : State) (t : Nat) : Prop :=
  match s.pc t with
  | .out => Calls remote A t (of t s.trace)
  | .entered => ∃ l, Calls remote A t l ∧ of t s.trace = l ++ [.called t]
  | .asking => ¬ Late A t s.trace ∧ ∃ l, Calls remote A t l ∧ of t s.trace = l ++ [.called t]
  | .writing a i => ¬ Late A t s.trace ∧ a = A ∧ i ≤ 18 ∧ (∀ j, j < i → s.mem j = (cells A).getD j 0) ∧
      ∃ l, Calls remote A t l ∧ of t s.trace = l ++ [.called t, .asked t (.name A)]
  | .reading m => s.ready = true ∧ m = (cells A).take m.length ∧
      ∃ l, Calls remote A t l ∧ (of t s.trace = l ++ [.called t] ∨ of t s.trace = l ++ [.called t, .asked t (.name A)])

structure Inv (remote : Bool) (A : Addr) (s : State) : Prop where
  kernel : ∀ a, s.kernel = some a → a = A
  mem : s.ready = true → ∀ i, i < 18 → s.mem i = (cells A).getD i 0
  pc : ∀ t, At remote A s t
  asked : s.ready = true → ∃ u, Ev.asked u (.name A) ∈ s.trace
  back : (∃ t, Ev.returned t A ∈ s.trace) → s.ready = true
  known : Known A s.trace
  kept : Kept A s.trace

theorem init_inv (remote : Bool) (A : Addr) : Inv remote A {} where
  kernel := by simp
  mem := by simp
  pc := fun t => Calls.none
  asked := by simp
  back := by simp
  known := by intro pre t post h; simp at h
  kept := by intro pre t mid u post h; simp at h

/-- What holds for one thread remains when another one takes a step. -/
theorem at_other {remote : Bool} {A : Addr} {s s' : State} {t u : Nat} (h : At remote A s u) (hne : u ≠ t)
    (hpc : s'.pc u = s.pc u) {es : List Ev} (hes : ∀ e ∈ es, who e = t) (htr : s'.trace = s.trace ++ es)
    (hmem : ∀ j, s.mem j = (cells A).getD j 0 → s'.mem j = (cells A).getD j 0) (hr : s.ready = true → s'.ready = true) : At remote A s' u := by
  have hes' : ∀ e ∈ es, who e ≠ u := fun e he h' => hne (h' ▸ hes e he)
  have hof : of u s'.trace = of u s.trace := by rw [htr, of_append hes']
  have hlate : Late A u s'.trace → Late A u s.trace := by
    rw [htr]
    exact late_append hes'
  unfold At at h ⊢
  rw [hpc]
  split
  all_goals rename_i hp
  all_goals rw [hp] at h
  all_goals simp only at h
  · rwa [hof]
  · rwa [hof]
  · rw [hof]
    exact ⟨fun hl => h.1 (hlate hl), h.2⟩
  · rw [hof]
    exact ⟨fun hl => h.1 (hlate hl), h.2.1, h.2.2.1, fun j hj => hmem j (h.2.2.2.1 j hj), h.2.2.2.2⟩
  · rw [hof]
    exact ⟨hr h.1, h.2⟩

theorem cells_length {A : Addr} (h : A.addr.length = 16) : (cells A).length = 18 := by simp [cells, h]

theorem ofCells_cells {A : Addr} (h : A.addr.length = 16) : ofCells (cells A) = A := by
  have hp := A.port.toNat_lt
  obtain ⟨addr, port⟩ := A
  simp only at h hp
  simp only [ofCells, cells]
  have e1 : (addr ++ [UInt8.ofNat (port.toNat % 256), UInt8.ofNat (port.toNat / 256)]).take 16 = addr := by
    rw [← h]; simp
  rw [e1]
  simp only [Addr.mk.injEq, true_and]
  have g0 : (addr ++ [UInt8.ofNat (port.toNat % 256), UInt8.ofNat (port.toNat / 256)]).getD 16 0 = UInt8.ofNat (port.toNat % 256) := by
    rw [← h]; simp
  have g1 : (addr ++ [UInt8.ofNat (port.toNat % 256), UInt8.ofNat (port.toNat / 256)]).getD 17 0 = UInt8.ofNat (port.toNat / 256) := by
    have : 17 = addr.length + 1 := by omega
    rw [this]; simp [List.getElem?_append_right]
  rw [g0, g1]
  have t0 : (UInt8.ofNat (port.toNat % 256)).toNat = port.toNat % 256 := by simp
  have t1 : (UInt8.ofNat (port.toNat / 256)).toNat = port.toNat / 256 := by
    simp only [UInt8.toNat_ofNat']; omega
  have : (port.toNat % 256 + 256 * (port.toNat / 256)) = port.toNat := by omega
  rw [t0, t1, this]
  simp

theorem setPc_self (s : State) (t : Nat) (p : Pc) : setPc s t p t = p := by simp [setPc]
theorem setPc_ne (s : State) {t u : Nat} (p : Pc) (h : u ≠ t) : setPc s t p u = s.pc u := by simp [setPc, h]

/-- A step of a thread in which nothing is seen. -/
theorem inv_quiet {remote : Bool} {A : Addr} {s s' : State} {t : Nat} (h : Inv remote A s) (hk : s'.kernel = s.kernel)
    (hpc : ∀ u, u ≠ t → s'.pc u = s.pc u) (htr : s'.trace = s.trace) (hmem : ∀ j, s.mem j = (cells A).getD j 0 → s'.mem j = (cells A).getD j 0)
    (hr : s.ready = true → s'.ready = true) (hm : s'.ready = true → ∀ i, i < 18 → s'.mem i = (cells A).getD i 0)
    (has : s'.ready = true → ∃ u, Ev.asked u (.name A) ∈ s.trace) (hat : At remote A s' t) : Inv remote A s' where
  kernel := by rw [hk]; exact h.kernel
  mem := hm
  pc := fun u => by
    by_cases e : u = t
    · subst e; exact hat
    · exact at_other (h.pc u) e (hpc u e) (es := []) (by simp) (by simpa using htr) hmem hr
  asked := by rw [htr]; exact has
  back := by rw [htr]; exact fun hb => hr (h.back hb)
  known := by rw [htr]; exact h.known
  kept := by rw [htr]; exact h.kept

theorem late_asking {remote : Bool} {A : Addr} {s : State} {t : Nat} (h : At remote A s t) (hp : s.pc t = .asking) : ¬ Late A t s.trace := by
  unfold At at h
  rw [hp] at h
  exact h.1

/-- The system is asked, and something else than the address is returned. -/
theorem inv_ret {remote : Bool} {A : Addr} {s : State} {t : Nat} (h : Inv remote A s) (hp : s.pc t = .asking) {x : Answer} {r : Addr}
    (hx : Shown remote A x r) (hr : r ≠ A) : Inv remote A (ret s t r [.asked t x]) := by
  have hl := late_asking (h.pc t) hp
  have hl' : ¬ Late A t (s.trace ++ [.asked t x]) := by
    intro hl'
    rcases late_snoc hl' with h' | ⟨h', -⟩
    · exact hl h'
    · simp at h'
  constructor
  · exact h.kernel
  · exact h.mem
  · intro u
    by_cases e : u = t
    · subst e
      have := h.pc u
      unfold At at this ⊢
      rw [hp] at this
      obtain ⟨-, l, hc, hl⟩ := this
      simp only [ret, setPc_self, of_snoc, who, if_pos, hl]
      have := Calls.asked hc hx
      simpa using this
    · refine at_other (h.pc u) e (setPc_ne s _ e) (es := [.asked t x, .returned t r]) ?_ ?_ (fun j => id) id
      · simp [who]
      · simp [ret]
  · intro hrd
    obtain ⟨u, hu⟩ := h.asked hrd
    exact ⟨u, by simp [ret, hu]⟩
  · rintro ⟨u, hu⟩
    refine h.back ⟨u, ?_⟩
    simp only [ret, List.mem_append, List.mem_singleton] at hu
    rcases hu with (hu | hu) | hu
    · exact hu
    · simp at hu
    · simp at hu
      exact absurd hu.2.symm hr
  · refine known_snoc (known_snoc h.known (by simp)) ?_
    intro u hu
    simp at hu
    exact absurd hu.2 hr
  · refine kept_snoc (kept_snoc h.kept ?_ (by simp)) (by simp) ?_
    · intro u y hu
      simp at hu
      rw [← hu.1]
      exact hl
    · intro u y hu hlu
      simp at hu
      rw [← hu.1] at hlu
      exact absurd hlu hl'

theorem unspecified_ne {A : Addr} (h : A.port ≠ 0) : unspecified ≠ A := by
  intro e; rw [← e] at h; exact h rfl

theorem invalid_ne {A : Addr} (h : A.port ≠ 0) : invalid ≠ A := by
  intro e; rw [← e] at h; exact h rfl

theorem take_succ {l : Bytes} {n : Nat} (h : n < l.length) : l.take n ++ [l.getD n 0] = l.take (n + 1) := by
  rw [List.take_add_one]
  simp [h]

theorem go_inv {remote : Bool} {A : Addr} (hlen : A.addr.length = 16) (hport : A.port ≠ 0) {s s' : State} {t : Nat} {e : Option Answer}
    (h : Inv remote A s) (hs : go remote s t e = some s') : Inv remote A s' := by
  have hat := h.pc t
  have hc18 := cells_length hlen
  unfold go at hs
  unfold At at hat
  split at hs
  · simp at hs
  · rename_i hp
    rw [hp] at hat
    simp only [Option.some.injEq] at hs
    subst hs
    refine inv_quiet h rfl (fun u hu => setPc_ne s _ hu) rfl (fun j => id) id h.mem h.asked ?_
    unfold At
    obtain ⟨l, hc, hl⟩ := hat
    simp only [setPc_self]
    cases hrd : s.ready
    · refine ⟨fun hlate => ?_, l, hc, hl⟩
      obtain ⟨pre, u, mid, post, hh⟩ := hlate
      have := h.back ⟨u, by simp [hh]⟩
      simp [hrd] at this
    · exact ⟨rfl, by simp, l, hc, .inl hl⟩
  · rename_i hp
    rw [hp] at hat
    have key : ∀ x, (x = .notConnected ∨ x = .failed ∨ x = .other ∨ x = honest remote s.kernel) → Inv remote A (answered remote s t x) := by
      intro x hx
      by_cases hA : x = .name A
      · subst hA
        have hl := late_asking (h.pc t) hp
        obtain ⟨-, l, hc, hof⟩ := hat
        simp only [answered, if_neg hport]
        constructor
        · exact h.kernel
        · exact h.mem
        · intro u
          by_cases e : u = t
          · subst e
            unfold At
            simp only [setPc_self, of_snoc, who, if_pos, hof]
            refine ⟨fun hl' => ?_, trivial, by omega, by simp, l, hc, by simp⟩
            rcases late_snoc hl' with h' | ⟨h', -⟩
            · exact hl h'
            · simp at h'
          · refine at_other (h.pc u) e (setPc_ne s _ e) (es := [.asked t (.name A)]) ?_ rfl (fun j => id) id
            simp [who]
        · intro hrd
          obtain ⟨u, hu⟩ := h.asked hrd
          exact ⟨u, by simp [hu]⟩
        · rintro ⟨u, hu⟩
          refine h.back ⟨u, ?_⟩
          simpa using hu
        · exact known_snoc h.known (by simp)
        · refine kept_snoc h.kept ?_ (by simp)
          intro u y hu
          simp at hu
          rw [← hu.1]
          exact hl
      · rcases hx with rfl | rfl | rfl | hx
        · simp only [answered]
          cases remote
          · exact inv_ret h hp (.notConnected rfl) (invalid_ne hport)
          · exact inv_ret h hp (.unconnected rfl) (unspecified_ne hport)
        · exact inv_ret h hp .failed (invalid_ne hport)
        · exact inv_ret h hp .other (invalid_ne hport)
        · cases hk : s.kernel with
          | some a =>
            have := h.kernel a hk
            subst this
            rw [hk] at hx
            exact absurd hx hA
          | none =>
            rw [hk] at hx
            cases remote
            · simp [honest] at hx
              subst hx
              have : unspecified.port = 0 := rfl
              simp only [answered, this, if_pos]
              exact inv_ret h hp .unbound (unspecified_ne hport)
            · simp [honest] at hx
              subst hx
              exact inv_ret h hp (.unconnected rfl) (unspecified_ne hport)
    split at hs
    · simp at hs
    · rename_i x hx
      simp only [Option.some.injEq] at hs
      subst hs
      refine key x ?_
      cases x with
      | name a => exact absurd rfl (hx a)
      | _ => simp
    · simp only [Option.some.injEq] at hs
      subst hs
      exact key _ (by simp)
  · rename_i a i hp
    rw [hp] at hat
    obtain ⟨hl, rfl, hi, hw, l, hc, hof⟩ := hat
    split at hs
    · rename_i hlt
      simp only [Option.some.injEq] at hs
      subst hs
      have hmm : ∀ j, s.mem j = (cells a).getD j 0 → (if j = i then (cells a).getD i 0 else s.mem j) = (cells a).getD j 0 := by
        intro j hj
        by_cases e : j = i
        · simp [e]
        · rw [if_neg e]; exact hj
      refine inv_quiet h rfl (fun u hu => setPc_ne s _ hu) rfl hmm id (fun hrd j hj => hmm j (h.mem hrd j hj)) h.asked ?_
      unfold At
      simp only [setPc_self]
      refine ⟨hl, trivial, hlt, fun j hj => ?_, l, hc, hof⟩
      by_cases e : j = i
      · simp [e]
      · rw [if_neg e]
        exact hw j (by omega)
    · rename_i hge
      simp only [Option.some.injEq] at hs
      subst hs
      refine inv_quiet h rfl (fun u hu => setPc_ne s _ hu) rfl (fun j => id) (fun _ => rfl) (fun _ j hj => hw j (by omega)) ?_ ?_
      · intro _
        have : Ev.asked t (.name a) ∈ of t s.trace := by rw [hof]; simp
        rw [of_eq] at this
        exact ⟨t, (List.mem_filter.1 this).1⟩
      · unfold At
        simp only [setPc_self]
        exact ⟨trivial, by simp, l, hc, .inr hof⟩
  · rename_i m hp
    rw [hp] at hat
    obtain ⟨hrd, hm, l, hc, hof⟩ := hat
    split at hs
    · rename_i hlt
      simp only [Option.some.injEq] at hs
      subst hs
      refine inv_quiet h rfl (fun u hu => setPc_ne s _ hu) rfl (fun j => id) id h.mem h.asked ?_
      unfold At
      simp only [setPc_self]
      refine ⟨hrd, ?_, l, hc, hof⟩
      rw [h.mem hrd _ hlt, List.length_append, List.length_singleton, ← take_succ (by omega), ← hm]
    · rename_i hge
      simp only [Option.some.injEq] at hs
      subst hs
      have hmA : m = cells A := by
        rw [hm]
        exact List.take_of_length_le (by omega)
      rw [hmA, ofCells_cells hlen]
      obtain ⟨u0, hu0⟩ := h.asked hrd
      simp only [ret, List.append_nil]
      constructor
      · exact h.kernel
      · exact h.mem
      · intro u
        by_cases e : u = t
        · subst e
          unfold At
          simp only [setPc_self, of_snoc, who, if_pos]
          rcases hof with hof | hof
          · rw [hof]
            simpa using Calls.cached hc
          · rw [hof]
            simpa using Calls.asked hc .name
        · refine at_other (h.pc u) e (setPc_ne s _ e) (es := [.returned t A]) ?_ rfl (fun j => id) id
          simp [who]
      · exact fun _ => ⟨u0, by simp [hu0]⟩
      · exact fun _ => hrd
      · exact known_snoc h.known (fun _ _ => ⟨u0, hu0⟩)
      · refine kept_snoc h.kept (by simp) ?_
        intro u r hu _
        simp at hu
        exact hu.2.symm

theorem step_inv {remote : Bool} {A : Addr} (hlen : A.addr.length = 16) (hport : A.port ≠ 0) {s s' : State} {a : Act}
    (h : Inv remote A s) (hA : ∀ b, a = .assign b → b = A) (hs : step remote s a = some s') : Inv remote A s' := by
  cases a with
  | assign b =>
    simp only [step, Option.some.injEq] at hs
    subst hs
    have := hA b rfl
    subst this
    exact ⟨by simp, h.mem, h.pc, h.asked, h.back, h.known, h.kept⟩
  | drop =>
    simp only [step, Option.some.injEq] at hs
    subst hs
    exact ⟨by simp, h.mem, h.pc, h.asked, h.back, h.known, h.kept⟩
  | call t =>
    simp only [step] at hs
    split at hs
    · rename_i hp
      simp only [Option.some.injEq] at hs
      subst hs
      have hat := h.pc t
      unfold At at hat
      rw [hp] at hat
      constructor
      · exact h.kernel
      · exact h.mem
      · intro u
        by_cases e : u = t
        · subst e
          unfold At
          simp only [setPc_self, of_snoc, who, if_pos]
          exact ⟨_, hat, rfl⟩
        · refine at_other (h.pc u) e (setPc_ne s _ e) (es := [.called t]) ?_ rfl (fun j => id) id
          simp [who]
      · intro hrd
        obtain ⟨u, hu⟩ := h.asked hrd
        exact ⟨u, by simp [hu]⟩
      · rintro ⟨u, hu⟩
        exact h.back ⟨u, by simpa using hu⟩
      · exact known_snoc h.known (by simp)
      · exact kept_snoc h.kept (by simp) (by simp)
    · simp at hs
  | go t e => exact go_inv hlen hport h hs

theorem run_inv {remote : Bool} {A : Addr} (hlen : A.addr.length = 16) (hport : A.port ≠ 0) {acts : List Act} {s s' : State}
    (h : Inv remote A s) (hA : Only A acts) (hs : run remote s acts = some s') : Inv remote A s' := by
  induction acts generalizing s with
  | nil => simp only [run, Option.some.injEq] at hs; subst hs; exact h
  | cons a as ih =>
    simp only [run, Option.bind_eq_some_iff] at hs
    obtain ⟨s1, h1, h2⟩ := hs
    exact ih (step_inv hlen hport h (fun b hb => hA b (by simp [hb])) h1) (fun b hb => hA b (List.mem_cons_of_mem _ hb)) h2

theorem sees {remote : Bool} {A : Addr} {s : State} (h : Inv remote A s) (t : Nat) : Sees remote A t (of t s.trace) := by
  have hat := h.pc t
  unfold At at hat
  split at hat
  · exact .inl hat
  · obtain ⟨l, hc, hl⟩ := hat
    exact .inr ⟨l, hc, .inl hl⟩
  · obtain ⟨-, l, hc, hl⟩ := hat
    exact .inr ⟨l, hc, .inl hl⟩
  · obtain ⟨-, -, -, -, l, hc, hl⟩ := hat
    exact .inr ⟨l, hc, .inr ⟨_, hl⟩⟩
  · obtain ⟨-, -, l, hc, hl | hl⟩ := hat
    · exact .inr ⟨l, hc, .inl hl⟩
    · exact .inr ⟨l, hc, .inr ⟨_, hl⟩⟩

/-- No thread is to write, and the address is cached. -/
def Settled (s : State) : Prop := s.ready = true ∧ ∀ t, s.pc t = .out ∨ s.pc t = .entered ∨ ∃ m, s.pc t = .reading m

theorem settled_step {remote : Bool} {s s' : State} {a : Act} (h : Settled s) (hs : step remote s a = some s') : Settled s' := by
  have put : ∀ t p, (p = .out ∨ p = .entered ∨ ∃ m, p = .reading m) → ∀ u,
      setPc s t p u = .out ∨ setPc s t p u = .entered ∨ ∃ m, setPc s t p u = .reading m := by
    intro t p hp u
    by_cases e : u = t
    · subst e; rw [setPc_self]; exact hp
    · rw [setPc_ne s p e]; exact h.2 u
  cases a with
  | assign b => simp only [step, Option.some.injEq] at hs; subst hs; exact h
  | drop => simp only [step, Option.some.injEq] at hs; subst hs; exact h
  | call t =>
    simp only [step] at hs
    split at hs
    · simp only [Option.some.injEq] at hs
      subst hs
      exact ⟨h.1, put t _ (.inr (.inl rfl))⟩
    · simp at hs
  | go t e =>
    simp only [step, go] at hs
    rcases h.2 t with hp | hp | ⟨m, hp⟩
    · simp [hp] at hs
    · simp only [hp, h.1, if_pos, Option.some.injEq] at hs
      subst hs
      exact ⟨rfl, put t _ (.inr (.inr ⟨_, rfl⟩))⟩
    · simp only [hp] at hs
      split at hs
      · simp only [Option.some.injEq] at hs
        subst hs
        exact ⟨h.1, put t _ (.inr (.inr ⟨_, rfl⟩))⟩
      · simp only [Option.some.injEq] at hs
        subst hs
        exact ⟨h.1, put t _ (.inl rfl)⟩

theorem settled_run {remote : Bool} {acts : List Act} {s s' : State} (h : Settled s) (hs : run remote s acts = some s') : Settled s' := by
  induction acts generalizing s with
  | nil => simp only [run, Option.some.injEq] at hs; subst hs; exact h
  | cons a as ih =>
    simp only [run, Option.bind_eq_some_iff] at hs
    obtain ⟨s1, h1, h2⟩ := hs
    exact ih (settled_step h h1) h2

theorem settled_races {s : State} (h : Settled s) : ¬ races s := by
  rintro ⟨t, u, i, -, hw, -⟩
  unfold writes at hw
  rcases h.2 t with hp | hp | ⟨m, hp⟩ <;> simp [hp] at hw

end Verif.Address
