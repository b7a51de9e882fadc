import Verif.Proofs.ValueDrop
/-!
# C120: the destruction of nested values

`Start s0` says that the program has values which contain no cycles, and that nothing is being destroyed.
-/
namespace Verif.Props
open Verif.ValueDrop

theorem drop_run_cases {s0 s : Sys} (h : Inv s0 s) (as : List ValueDrop.Act) : ValueDrop.run s as = .no ∨ ∃ s', ValueDrop.run s as = .ok s' ∧ Inv s0 s' := by
  induction as generalizing s with
  | nil => exact .inr ⟨s, rfl, h⟩
  | cons a as ih =>
    simp only [ValueDrop.run]
    rcases step_inv h a with e | ⟨s1, e, h1⟩
    · rw [e]; exact .inl rfl
    · rw [e]; exact ih h1

/-- C120.  However many threads destroy and copy values at the same time, and whenever memory runs out, no block is accessed after it has been freed or while it is being destroyed, and none is freed twice. -/
theorem C120_defined {s0 : Sys} (h0 : Start s0) (as : List ValueDrop.Act) : ValueDrop.run s0 as ≠ .undefined := by
  rcases drop_run_cases (inv_start h0) as with e | ⟨s, e, -⟩ <;> rw [e] <;> nofun

/-- C120.  What the program can still get at is there, with the elements that it had in the beginning. -/
theorem C120_kept {s0 s : Sys} (h0 : Start s0) (h : ValueDrop.Reachable s0 s) {a : Nat} (hu : Used s a) :
    ∃ c c0 : Cell, s.heap[a]? = some (some c) ∧ s0.heap[a]? = some (some c0) ∧ c.elems = c0.elems := by
  have hv := inv h0 h
  have ho : outs s (.ref a) ≠ 0 := by
    cases hu with
    | root hm => have := List.count_pos_iff.mpr hm; unfold outs; omega
    | @elem b _ c _ hb hm =>
      have : 0 < heapc s (.ref a) := List.count_pos_iff.mpr (List.mem_flatMap.mpr ⟨_, List.mem_iff_getElem?.mpr ⟨b, hb⟩, hm⟩)
      unfold outs; omega
  obtain ⟨c, hc, -⟩ := hv.cell (a := a) (by rw [refs_eq]; omega)
  obtain ⟨c0, h1, -, h2⟩ := hv.keep a c hc
  exact ⟨c, c0, hc, h1, h2.resolve_right ho⟩

theorem drop_bound (f : Nat → Nat) : ∀ n, ∃ m, ∀ i, i < n → f i ≤ m
  | 0 => ⟨0, fun _ h => absurd h (Nat.not_lt_zero _)⟩
  | n + 1 => by
    obtain ⟨m, h⟩ := drop_bound f n
    refine ⟨max m (f n), fun i hi => ?_⟩
    by_cases he : i = n
    · subst he; exact Nat.le_max_right _ _
    · exact Nat.le_trans (h i (by omega)) (Nat.le_max_left _ _)

/-- C120.  When all threads are done, the blocks that are left are exactly those that the program can still get at: nothing leaks. -/
theorem C120_freed {s0 s : Sys} (h0 : Start s0) (h : ValueDrop.Reachable s0 s) (hi : ∀ fs ∈ s.frames, fs = []) (a : Nat) : (∃ c, s.heap[a]? = some (some c)) ↔ Used s a := by
  refine ⟨fun ⟨c, hc⟩ => ?_, fun hu => let ⟨c, _, hc, _⟩ := C120_kept h0 h hu; ⟨c, hc⟩⟩
  have hv := inv h0 h
  obtain ⟨rank, hrank⟩ := h0.acyclic
  obtain ⟨m, hm⟩ := drop_bound rank s.heap.length
  have hno : ∀ a, idc s a = 0 := fun a => by
    unfold idc
    refine List.count_eq_zero.mpr fun hm => ?_
    obtain ⟨fs, hfs, hm⟩ := List.mem_flatMap.mp hm
    rw [hi fs hfs] at hm; cases hm
  have hfr : ∀ v, frmc s v = 0 := fun v => by
    unfold frmc
    refine List.count_eq_zero.mpr fun hm => ?_
    obtain ⟨fs, hfs, hm⟩ := List.mem_flatMap.mp hm
    rw [hi fs hfs] at hm; cases hm
  suffices H : ∀ d a, (∃ c, s.heap[a]? = some (some c)) → m - rank a = d → Used s a from H _ a ⟨c, hc⟩ rfl
  intro d
  induction d using Nat.strongRecOn with
  | ind d ih =>
    intro a ⟨c, hc⟩ hd
    have hok := hv.ok a
    rw [hc] at hok
    obtain ⟨h1, h2⟩ := hok
    have hpos : c.count ≠ 0 := fun e => by rw [if_pos e, hno] at h2; exact absurd h2.1 (by omega)
    have hout : outs s (.ref a) ≠ 0 := by rw [refs_eq, hfr] at h1; omega
    by_cases hr : s.roots.count (.ref a) = 0
    · have hp : 0 < heapc s (.ref a) := by unfold outs at hout; omega
      obtain ⟨o, ho, hmem⟩ := List.mem_flatMap.mp (List.count_pos_iff.mp hp)
      cases o with
      | none => cases hmem
      | some c' =>
        obtain ⟨b, hb⟩ := List.mem_iff_getElem?.mp ho
        obtain ⟨c0, hb0, hsub, -⟩ := hv.keep b c' hb
        have hlt := hrank b c0 hb0 a (hsub a hmem)
        have hle := hm b (getElem?_lt hb)
        exact .elem (ih (m - rank b) (by omega) b ⟨c', hb⟩ rfl) hb hmem
    · exact .root (List.count_pos_iff.mp (by omega))

/-- C120.  Destructors end: no thread is ever stuck in one, and they take a finite number of steps altogether. -/
theorem C120_terminates {s0 s : Sys} (h0 : Start s0) (h : ValueDrop.Reachable s0 s) :
    (∀ (t : Nat) (f : Frame) (fs : List Frame), s.frames[t]? = some (f :: fs) → ∀ k, ∃ s', ValueDrop.step s (.go t k) = .ok s') ∧
    ¬ ∃ f : Nat → Sys, f 0 = s ∧ ∀ n, ∃ t k, ValueDrop.step (f n) (.go t k) = .ok (f (n + 1)) := by
  constructor
  · intro t f fs hf k
    rcases step_inv (inv h0 h) (.go t k) with e | ⟨s1, e, -⟩
    · exfalso
      simp only [ValueDrop.step, go, hf] at e
      cases f with
      | loop this stack => obtain ⟨s1, h1, -⟩ := unpack_inv (k := k) (inv h0 h) hf; simp only [h1] at e; cases e
      | tail this stack => obtain ⟨s1, h1, -⟩ := release_inv (inv h0 h) hf; simp only [h1] at e; cases e
      | fin => cases e
      | drop a rest =>
        cases rest with
        | cons v vs => cases e
        | nil =>
          simp only at e
          split at e <;> cases e
    · exact ⟨s1, e⟩
  · rintro ⟨f, -, hf⟩
    exact no_endless _ _ f rfl rfl hf

/-- What one thread does alone, where there is always memory for `m` elements. -/
inductive DropAlone (t m : Nat) (s0 : Sys) : Sys → Prop
  | init : DropAlone t m s0 s0
  | step {s s' : Sys} (a : ValueDrop.Act) : DropAlone t m s0 s → Alone t m a → ValueDrop.step s a = .ok s' → DropAlone t m s0 s'

/-- C120.  If only one thread destroys values, and there is memory, then at most two destructors of values run at the same time, however deep the values are nested: there is no recursion.  What is missing is
that this is true of any number of threads; it is not: see below. -/
theorem C120_depth_partial {s0 s : Sys} (h0 : Start s0) {t m : Nat} (hm : ∀ (a : Nat) (c : Cell), s0.heap[a]? = some (some c) → c.elems.length ≤ m) (h : DropAlone t m s0 s) {fs : List Frame}
    (hf : s.frames[t]? = some fs) : depth fs ≤ 2 := by
  have : Flat t m s := by
    clear hf
    induction h with
    | init => exact ⟨hm, fun gs hg => by rw [h0.idle gs (List.mem_iff_getElem?.mpr ⟨t, hg⟩)]; exact .idle⟩
    | step a _ ha hs ih => exact flat_step ih ha hs
  exact shape_depth (this.shape fs hf)

/-! ## Recursion with two threads -/

/-- Blocks `0`, …, `n`, each of which contains the next one; there are variables for all but the last, and another one for the first. -/
def chain (n : Nat) : Sys :=
  { heap := (List.range n).map (fun j => some ⟨2, [.ref (j + 1)]⟩) ++ [some ⟨1, []⟩], frames := [[], []], roots := .ref 0 :: (List.range n).map .ref }

theorem chain_count (n a d : Nat) : ((List.range n).map fun j => Val.ref (j + d)).count (.ref a) = if d ≤ a ∧ a < n + d then 1 else 0 := by
  induction n with
  | zero => rw [if_neg (by omega)]; rfl
  | succ n ih =>
    rw [List.range_succ, List.map_append, List.count_append, ih]
    simp only [List.map_cons, List.map_nil, List.count_cons, List.count_nil, beq_iff_eq, Val.ref.injEq]
    split <;> split <;> split <;> omega

theorem chain_refs (n a : Nat) : refs (chain n) a = if a < n then 2 else if a = n then 1 else 0 := by
  have h1 : (vals (chain n)) = .ref 0 :: (List.range n).map (fun j => Val.ref (j + 0)) ++ (List.range n).map fun j => Val.ref (j + 1) := by
    simp [vals, chain, List.flatMap_map, cellVals, List.flatMap_append]
    induction n with
    | zero => rfl
    | succ n ih => simp [List.range_succ, ih]
  unfold refs
  rw [h1, List.count_append, List.count_cons, chain_count, chain_count]
  simp only [beq_iff_eq, Val.ref.injEq]
  split <;> split <;> split <;> split <;> (try split) <;> omega

theorem chain_get (n a : Nat) : (chain n).heap[a]? = if a < n then some (some ⟨2, [.ref (a + 1)]⟩) else if a = n then some (some ⟨1, []⟩) else none := by
  simp only [chain]
  rw [List.getElem?_append]
  simp only [List.length_map, List.length_range]
  split
  · simp [*]
  · split
    · subst_vars; simp
    · rw [List.getElem?_eq_none]; simp; omega

theorem chain_start (n : Nat) : Start (chain n) := by
  refine ⟨by simp [chain], fun a c hc => ?_, fun a hr => ?_, ⟨fun a => n - a, fun a c hc b hb => ?_⟩⟩
  · rw [chain_get] at hc
    rw [chain_refs]
    split at hc
    · rw [if_pos ‹_›]; cases hc; exact ⟨rfl, Nat.succ_pos _⟩
    · rw [if_neg ‹_›]
      split at hc
      · rw [if_pos ‹_›]; cases hc; exact ⟨rfl, Nat.succ_pos _⟩
      · cases hc
  · rw [chain_refs] at hr
    rw [chain_get]
    split
    · exact ⟨_, rfl⟩
    · rw [if_neg ‹_›] at hr
      split
      · exact ⟨_, rfl⟩
      · rw [if_neg ‹_›] at hr; exact absurd rfl hr
  · rw [chain_get] at hc
    split at hc
    · cases hc
      simp only [List.mem_singleton, Val.ref.injEq] at hb
      simp only; omega
    · split at hc <;> cases hc
      cases hb

/-- What two threads do, where there is always memory for `m` elements. -/
inductive DropMem (m : Nat) (s0 : Sys) : Sys → Prop
  | init : DropMem m s0 s0
  | step {s s' : Sys} (a : ValueDrop.Act) : DropMem m s0 s → (∀ t k, a = .go t k → m ≤ k) → ValueDrop.step s a = .ok s' → DropMem m s0 s'

theorem drop_mem_run {m : Nat} {s0 s s' : Sys} (h : DropMem m s0 s) : ∀ {as : List ValueDrop.Act}, (∀ a ∈ as, ∀ t k, a = .go t k → m ≤ k) → ValueDrop.run s as = .ok s' → DropMem m s0 s'
  | [], _, hr => by cases hr; exact h
  | a :: as, ha, hr => by
    simp only [ValueDrop.run] at hr
    split at hr
    · rename_i s1 hs
      exact drop_mem_run (.step a h (ha a (.head _)) hs) (fun x hx => ha x (.tail _ hx)) hr
    · rename_i hne
      exact absurd hr (hne _)

theorem run_cons {s s' : Sys} {a : Act} {as : List Act} (h : ValueDrop.step s a = .ok s') :
    ValueDrop.run s (a :: as) = ValueDrop.run s' as := by
  simp only [ValueDrop.run, h]

theorem chain_level (m n : Nat) : ∀ i, i ≤ n → ∃ s fs, DropMem m (chain n) s ∧ s.frames = [.loop (.ref i) [] :: fs, []] ∧ depth fs = i ∧ s.roots = ((List.range n).drop i).map .ref ∧
    ∀ j, i ≤ j → s.heap[j]? = (chain n).heap[j]?
  | 0, _ => ⟨⟨(chain n).heap, [[.loop (.ref 0) []], []], (List.range n).map .ref⟩, [], .step (.begin 0 0) .init (fun _ _ e => nomatch e) rfl, rfl, rfl, rfl, fun _ _ => rfl⟩
  | i + 1, hi => by
    obtain ⟨s, fs, hs, hf, hd, hr, hh⟩ := chain_level m n i (by omega)
    have hc : s.heap[i]? = some (some ⟨2, [.ref (i + 1)]⟩) := by rw [hh i (Nat.le_refl _), chain_get, if_pos (by omega)]
    have hroot : s.roots = .ref i :: ((List.range n).drop (i + 1)).map .ref := by
      rw [hr, List.drop_eq_getElem_cons (by rw [List.length_range]; omega)]; simp
    have hlt := getElem?_lt hc
    refine ⟨{ heap := (s.heap.set i (some ⟨1, [.ref (i + 1)]⟩)).set i (some ⟨0, []⟩), frames := [.loop (.ref (i + 1)) [] :: .drop i [] :: .fin :: fs, []], roots := ((List.range n).drop (i + 1)).map .ref },
      .drop i [] :: .fin :: fs, drop_mem_run hs (as := [.go 0 m, .begin 1 0, .go 1 m, .go 1 m, .go 1 m, .go 0 m, .go 0 m]) ?_ ?_, rfl, ?_, rfl, ?_⟩
    · intro a ha t k e
      subst e
      simp at ha
      omega
    · cases s with
      | mk heap frames roots =>
        simp only at hf hc hroot hlt
        subst hf hroot
        have hc1 : (heap.set i (some ⟨1, [.ref (i + 1)]⟩))[i]? = some (some ⟨1, [.ref (i + 1)]⟩) := List.getElem?_set_self hlt
        have g0 : ValueDrop.step ⟨heap, [.loop (.ref i) [] :: fs, []], .ref i :: ((List.range n).drop (i + 1)).map .ref⟩ (.go 0 m) = .ok ⟨heap, [.tail (.ref i) [] :: fs, []], .ref i :: ((List.range n).drop (i + 1)).map .ref⟩ := by
          simp only [ValueDrop.step, go, List.getElem?_cons_zero, unpack, hc]; rfl
        have g2 : ValueDrop.step ⟨heap, [.tail (.ref i) [] :: fs, [.loop (.ref i) []]], ((List.range n).drop (i + 1)).map .ref⟩ (.go 1 m) = .ok ⟨heap, [.tail (.ref i) [] :: fs, [.tail (.ref i) []]], ((List.range n).drop (i + 1)).map .ref⟩ := by
          simp only [ValueDrop.step, go, List.getElem?_cons_zero, List.getElem?_cons_succ, unpack, hc]; rfl
        have g3 : ValueDrop.step ⟨heap, [.tail (.ref i) [] :: fs, [.tail (.ref i) []]], ((List.range n).drop (i + 1)).map .ref⟩ (.go 1 m) =
            .ok ⟨heap.set i (some ⟨1, [.ref (i + 1)]⟩), [.tail (.ref i) [] :: fs, [.fin]], ((List.range n).drop (i + 1)).map .ref⟩ := by
          simp only [ValueDrop.step, go, List.getElem?_cons_zero, List.getElem?_cons_succ, release, hc]; rfl
        have g5 : ValueDrop.step ⟨heap.set i (some ⟨1, [.ref (i + 1)]⟩), [.tail (.ref i) [] :: fs, []], ((List.range n).drop (i + 1)).map .ref⟩ (.go 0 m) =
            .ok ⟨(heap.set i (some ⟨1, [.ref (i + 1)]⟩)).set i (some ⟨0, []⟩), [.drop i [.ref (i + 1)] :: .fin :: fs, []], ((List.range n).drop (i + 1)).map .ref⟩ := by
          simp only [ValueDrop.step, go, List.getElem?_cons_zero, release, hc1]; rfl
        exact (run_cons g0).trans ((run_cons rfl).trans ((run_cons g2).trans ((run_cons g3).trans ((run_cons rfl).trans ((run_cons g5).trans (run_cons rfl))))))
    · simp [depth, hd]
    · intro j hj
      simp only
      rw [List.getElem?_set_ne (by omega), List.getElem?_set_ne (by omega)]
      exact hh j (by omega)

/-- Discrepancy: when two threads destroy values that share parts, no bound on the depth of the recursion is true, even if there is always enough memory.  One thread sees in `unique()` that an array is shared,
and does not unpack it; then the other thread releases its reference; then the first one destroys the array, and with it each element, recursively; and so on. -/
theorem C120_recursion : ¬ ∃ bound : Nat, ∀ (m : Nat) (s0 s : Sys), Start s0 → (∀ (a : Nat) (c : Cell), s0.heap[a]? = some (some c) → c.elems.length ≤ m) → DropMem m s0 s →
    ∀ fs ∈ s.frames, depth fs ≤ bound := by
  rintro ⟨bound, h⟩
  obtain ⟨s, fs, hs, hf, hd, -, -⟩ := chain_level 1 bound bound (Nat.le_refl _)
  have := h 1 (chain bound) s (chain_start bound) (fun a c hc => by
    rw [chain_get] at hc
    split at hc
    · cases hc; exact Nat.le_refl _
    · split at hc <;> cases hc
      exact Nat.zero_le _) hs _ (by rw [hf]; exact .head _)
  simp only [depth] at this
  omega

/-- A tree with a shared part, which one thread destroys completely, while a variable keeps the part. -/
def dropTree : Sys := { heap := [some ⟨1, [.ref 1, .leaf, .ref 2]⟩, some ⟨1, [.ref 2]⟩, some ⟨3, [.leaf]⟩], frames := [[]], roots := [.ref 0, .ref 2] }

example : Start dropTree := by
  refine ⟨by simp [dropTree], fun a c hc => ?_, fun a hr => ?_, ⟨fun a => 2 - a, fun a c hc b hb => ?_⟩⟩
  · match a, hc with
    | 0, hc => cases hc; decide
    | 1, hc => cases hc; decide
    | 2, hc => cases hc; decide
    | a + 3, hc => cases hc
  · match a, hr with
    | 0, _ => exact ⟨_, rfl⟩
    | 1, _ => exact ⟨_, rfl⟩
    | 2, _ => exact ⟨_, rfl⟩
    | a + 3, hr => exact absurd (by simp [refs, vals, dropTree, cellVals, List.count_cons]) hr
  · match a, hc with
    | 0, hc => cases hc; simp at hb; simp only; omega
    | 1, hc => cases hc; simp at hb; simp only; omega
    | 2, hc => cases hc; simp at hb
    | a + 3, hc => cases hc

example : ValueDrop.run dropTree (.begin 0 0 :: List.replicate 30 (.go 0 3)) = .no ∧
    ValueDrop.run dropTree (.begin 0 0 :: List.replicate 29 (.go 0 3)) = .ok ⟨[none, none, some ⟨1, [.leaf]⟩], [[]], [.ref 2]⟩ := ⟨rfl, rfl⟩

end Verif.Props
