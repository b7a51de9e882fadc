import Verif.Model.SocketTable
namespace Verif.SocketTable

theorem ratio_lt (a : Nat) : ratio a < 2 ^ 32 := Nat.mod_lt _ (by decide)

theorem origin_le (d a : Nat) : origin d a ≤ d := by
  unfold origin
  rw [Nat.shiftRight_eq_div_pow]
  have := ratio_lt a
  have h2 : d * ratio a ≤ d * 2 ^ 32 := Nat.mul_le_mul_left _ (Nat.le_of_lt this)
  exact Nat.div_le_of_le_mul (by rw [Nat.mul_comm (2 ^ 32)]; exact h2)

theorem mem_order {d a i : Nat} : i ∈ order d a ↔ i < d := by
  have := origin_le d a
  simp only [order, List.mem_append, List.mem_range', List.mem_range]
  constructor
  · rintro (⟨k, h1, h2⟩ | h)
    · omega
    · omega
  · intro h
    by_cases hi : i < origin d a
    · exact .inr hi
    · exact .inl ⟨i - origin d a, by omega, by omega⟩

/-- The number of slots in use. -/
def occupied (l : List (Option Obj)) : Nat := l.countP Option.isSome

structure Inv (addr : Obj → Nat) (m : Map) : Prop where
  load : occupied m.stor ≤ m.used
  half : m.used ≤ m.stor.length / 2
  found : ∀ i o, m.stor[i]? = some (some o) → (order m.stor.length (addr o)).find? (fun i => fits addr (addr o) (m.stor.getD i none)) = some i

theorem exists_none {l : List (Option Obj)} (h : occupied l < l.length) : ∃ i, i < l.length ∧ l[i]? = some none := by
  induction l with
  | nil => simp at h
  | cons x t ih =>
    cases x with
    | none => exact ⟨0, by simp, rfl⟩
    | some o =>
      have : occupied t < t.length := by simp [occupied] at h ⊢; omega
      obtain ⟨i, h1, h2⟩ := ih this
      exact ⟨i + 1, by simp; omega, by simpa using h2⟩

theorem find_some {addr : Obj → Nat} {m : Map} (h : Inv addr m) (hn : m.stor.length ≠ 0) (a : Nat) :
    ∃ i, find addr m a = some i ∧ i < m.stor.length ∧ fits addr a (m.stor.getD i none) = true := by
  have hl := h.load
  have hh := h.half
  obtain ⟨k, hk1, hk2⟩ := exists_none (l := m.stor) (by omega)
  have : ((order m.stor.length a).find? fun i => fits addr a (m.stor.getD i none)).isSome := by
    rw [List.find?_isSome]
    exact ⟨k, mem_order.2 hk1, by simp [List.getD_eq_getElem?_getD, hk2, fits]⟩
  obtain ⟨i, hi⟩ := Option.isSome_iff_exists.1 this
  refine ⟨i, ?_, mem_order.1 (List.mem_of_find?_eq_some hi), by simpa using List.find?_some hi⟩
  unfold find
  rw [if_neg (by omega)]
  exact hi

theorem find?_weaken {p q : Nat → Bool} {l : List Nat} {i : Nat} (h : l.find? p = some i) (hi : q i = true) (hq : ∀ j, q j = true → p j = true) :
    l.find? q = some i := by
  induction l with
  | nil => simp at h
  | cons x t ih =>
    rw [List.find?_cons] at h ⊢
    cases hp : p x with
    | true => rw [hp] at h; cases h; rw [hi]
    | false =>
      rw [hp] at h
      have : q x = false := by cases hqx : q x <;> simp_all
      rw [this]
      exact ih h

theorem occupied_set {l : List (Option Obj)} {i : Nat} {o : Obj} : occupied (l.set i (some o)) ≤ occupied l + 1 := by
  induction l generalizing i with
  | nil => simp [occupied]
  | cons x t ih =>
    cases i with
    | zero => simp only [occupied, List.set_cons_zero, List.countP_cons]; cases x <;> simp
    | succ i => have := @ih i; simp only [occupied, List.set_cons_succ, List.countP_cons] at this ⊢; omega

theorem getD_eq {l : List (Option Obj)} {i : Nat} (h : i < l.length) : l[i]? = some (l.getD i none) := by
  simp [List.getD_eq_getElem?_getD, List.getElem?_eq_getElem h]

/-- Storing an object keeps the invariant if there is room; every other object is kept, except one with the same address. -/
theorem put_inv {addr : Obj → Nat} {m : Map} (h : Inv addr m) (o : Obj) (hr : m.used < m.stor.length / 2) :
    ∃ m', put addr m o = some m' ∧ Inv addr m' ∧ m'.stor.length = m.stor.length ∧ m'.used = m.used + 1 ∧ some o ∈ m'.stor ∧
      (∀ p, some p ∈ m.stor → addr p ≠ addr o → some p ∈ m'.stor) ∧ (∀ p, some p ∈ m'.stor → p = o ∨ some p ∈ m.stor) := by
  obtain ⟨j, hj, hjl, hfit⟩ := find_some h (by omega) (addr o)
  have hj' : (order m.stor.length (addr o)).find? (fun i => fits addr (addr o) (m.stor.getD i none)) = some j := by
    unfold find at hj; split at hj
    · exact nomatch hj
    · exact hj
  refine ⟨_, by unfold put; rw [hj]; rfl, ⟨?_, ?_, ?_⟩, by simp, rfl, List.mem_set hjl _, ?_, ?_⟩
  · exact Nat.le_trans occupied_set (Nat.succ_le_succ h.load)
  · simp only [List.length_set]; omega
  · intro i o' hi
    simp only [List.length_set] at *
    by_cases hij : i = j
    · subst hij
      rw [List.getElem?_set_self hjl] at hi
      cases hi
      refine find?_weaken hj' ?_ ?_
      · simp [List.getD_eq_getElem?_getD, List.getElem?_set_self hjl, fits]
      · intro k hk
        by_cases hki : k = i
        · rw [hki]; exact hfit
        · rw [List.getD_eq_getElem?_getD, List.getElem?_set_ne (fun h => hki h.symm), ← List.getD_eq_getElem?_getD] at hk; exact hk
    · rw [List.getElem?_set_ne (fun h => hij h.symm)] at hi
      have hf := h.found i o' hi
      refine find?_weaken hf ?_ ?_
      · rw [List.getD_eq_getElem?_getD, List.getElem?_set_ne (fun h => hij h.symm), hi]; simp [fits]
      · intro k hk
        by_cases hkj : k = j
        · subst hkj
          rw [List.getD_eq_getElem?_getD, List.getElem?_set_self hjl] at hk
          have e : addr o = addr o' := by simpa [fits] using hk
          rw [← e]
          exact hfit
        · rw [List.getD_eq_getElem?_getD, List.getElem?_set_ne (fun h => hkj h.symm), ← List.getD_eq_getElem?_getD] at hk; exact hk
  · intro p hp hne
    obtain ⟨i, hi⟩ := List.mem_iff_getElem?.1 hp
    rw [List.mem_iff_getElem?]
    refine ⟨i, ?_⟩
    by_cases hij : j = i
    · subst hij
      rw [List.getD_eq_getElem?_getD, hi] at hfit
      exact absurd (by simpa [fits] using hfit) hne
    · rw [List.getElem?_set_ne hij]; exact hi
  · intro p hp
    rcases List.mem_or_eq_of_mem_set hp with h | h
    · exact .inr h
    · cases h; exact .inl rfl

theorem empty_inv (addr : Obj → Nat) (n : Nat) : Inv addr { stor := List.replicate n none, used := 0 } := by
  refine ⟨?_, Nat.zero_le _, ?_⟩
  · simp [occupied]
  · intro i o hi
    rw [List.getElem?_replicate] at hi
    split at hi <;> cases hi

/-- Objects in the rest of the old map have different addresses from each other and from those moved. -/
def Apart (addr : Obj → Nat) (l : List (Option Obj)) : Prop := ∀ (i j : Nat) (o p : Obj), l[i]? = some (some o) → l[j]? = some (some p) → addr o = addr p → i = j

theorem apart_of_inv {addr : Obj → Nat} {m : Map} (h : Inv addr m) : Apart addr m.stor := by
  intro i j o p hi hj e
  have h1 := h.found i o hi
  have h2 := h.found j p hj
  rw [e] at h1
  rw [h1] at h2
  exact Option.some.inj h2

theorem Apart.tail {addr : Obj → Nat} {x : Option Obj} {t : List (Option Obj)} (h : Apart addr (x :: t)) : Apart addr t := by
  intro i j o p hi hj e
  have := h (i + 1) (j + 1) o p (by simpa using hi) (by simpa using hj) e
  omega

def keepers (keep : Obj → Bool) (l : List (Option Obj)) : Nat := l.countP fun x => x.any keep

theorem move_inv {addr : Obj → Nat} {keep : Obj → Bool} {l : List (Option Obj)} (ha : Apart addr l) :
    ∀ {m : Map}, Inv addr m → m.used + keepers keep l ≤ m.stor.length / 2 → (∀ p q, some p ∈ m.stor → some q ∈ l → addr p ≠ addr q) →
    ∃ m', move addr keep l m = some m' ∧ Inv addr m' ∧ m'.stor.length = m.stor.length ∧ m'.used = m.used + keepers keep l ∧
      (∀ p, some p ∈ m'.stor ↔ some p ∈ m.stor ∨ (some p ∈ l ∧ keep p = true)) := by
  induction l with
  | nil => intro m hm _ _; exact ⟨m, rfl, hm, rfl, by simp [keepers], by simp⟩
  | cons x t ih =>
    intro m hm hr hd
    cases x with
    | none =>
      obtain ⟨m', h1, h2, h3, h4, h5⟩ := ih ha.tail hm (by simpa [keepers] using hr) (fun p q hp hq => hd p q hp (List.mem_cons_of_mem _ hq))
      exact ⟨m', h1, h2, h3, by simpa [keepers] using h4, by simpa using h5⟩
    | some o =>
      cases hk : keep o with
      | false =>
        obtain ⟨m', h1, h2, h3, h4, h5⟩ := ih ha.tail hm (by simpa [keepers, hk] using hr) (fun p q hp hq => hd p q hp (List.mem_cons_of_mem _ hq))
        refine ⟨m', by simp [move, hk, h1], h2, h3, by simpa [keepers, hk] using h4, fun p => ?_⟩
        rw [h5 p]
        constructor
        · rintro (h | ⟨h, h'⟩)
          · exact .inl h
          · exact .inr ⟨List.mem_cons_of_mem _ h, h'⟩
        · rintro (h | ⟨h, h'⟩)
          · exact .inl h
          · rcases List.mem_cons.1 h with h | h
            · cases h; rw [hk] at h'; exact nomatch h'
            · exact .inr ⟨h, h'⟩
      | true =>
        have ek : keepers keep (some o :: t) = keepers keep t + 1 := by simp [keepers, hk]
        obtain ⟨m1, p1, p2, p3, p4, p5, p6, p7⟩ := put_inv hm o (by omega)
        have hot : ∀ q, some q ∈ t → addr o ≠ addr q := by
          intro q hq e
          obtain ⟨i, hi⟩ := List.mem_iff_getElem?.1 hq
          have := ha 0 (i + 1) o q rfl (by simpa using hi) e
          omega
        obtain ⟨m', h1, h2, h3, h4, h5⟩ := ih ha.tail p2 (by omega) (fun p q hp hq => by
          rcases p7 p hp with rfl | hp
          · exact hot q hq
          · exact hd p q hp (List.mem_cons_of_mem _ hq))
        refine ⟨m', by simp [move, hk, p1, h1], h2, by omega, by omega, fun p => ?_⟩
        rw [h5 p]
        constructor
        · rintro (h | ⟨h, h'⟩)
          · rcases p7 p h with rfl | h
            · exact .inr ⟨by simp, hk⟩
            · exact .inl h
          · exact .inr ⟨List.mem_cons_of_mem _ h, h'⟩
        · rintro (h | ⟨h, h'⟩)
          · exact .inl (p6 p h (hd p o h (by simp)))
          · rcases List.mem_cons.1 h with h | h
            · cases h; exact .inl p5
            · exact .inr ⟨h, h'⟩

theorem insert_inv {addr : Obj → Nat} {count keep : Obj → Bool} {m : Map} (h : Inv addr m) (hc : ∀ x, keep x = true → count x = true) (o : Obj) :
    ∃ m', insert addr count keep m o = some m' ∧ Inv addr m' ∧ m'.stor.length ≠ 0 ∧ some o ∈ m'.stor ∧
      (∀ p, some p ∈ m.stor → keep p = true → addr p ≠ addr o → some p ∈ m'.stor) ∧ (∀ p, some p ∈ m'.stor → p = o ∨ some p ∈ m.stor) := by
  unfold insert
  by_cases hu : m.used ≥ m.stor.length / 2
  · rw [if_pos hu]
    have hle : keepers keep m.stor ≤ keepers count m.stor := by
      refine List.countP_mono_left fun x _ hx => ?_
      cases x with
      | none => exact hx
      | some o => exact hc o hx
    have hcap : keepers keep m.stor < capacity count m.stor / 2 := by
      have : capacity count m.stor = 17 + 3 * keepers count m.stor := rfl
      omega
    obtain ⟨m1, h1, h2, h3, h4, h5⟩ := move_inv (keep := keep) (apart_of_inv h) (empty_inv addr (capacity count m.stor))
      (by show 0 + _ ≤ _; simp only [List.length_replicate]; omega) (fun p q hp => absurd (List.eq_of_mem_replicate hp) (by simp))
    simp only [List.length_replicate, Nat.zero_add] at h3 h4
    obtain ⟨m2, p1, p2, p3, p4, p5, p6, p7⟩ := put_inv h2 o (by rw [h3, h4]; omega)
    refine ⟨m2, by rw [h1]; exact p1, p2, by simp only [capacity] at h3; omega, p5, fun p hp hk hne => p6 p ((h5 p).2 (.inr ⟨hp, hk⟩)) hne, fun p hp => ?_⟩
    rcases p7 p hp with h | h
    · exact .inl h
    · rcases (h5 p).1 h with h | h
      · exact absurd (List.eq_of_mem_replicate h) (by simp)
      · exact .inr h.1
  · rw [if_neg hu]
    obtain ⟨m2, p1, p2, p3, p4, p5, p6, p7⟩ := put_inv h o (by omega)
    exact ⟨m2, p1, p2, by omega, p5, fun p hp _ hne => p6 p hp hne, p7⟩

theorem lookup_mem {addr : Obj → Nat} {alive : Obj → Bool} {m : Map} (h : Inv addr m) (o : Obj) (hm : some o ∈ m.stor) (ha : alive o = true) :
    lookup addr alive m (addr o) = some (some o) := by
  obtain ⟨i, hi⟩ := List.mem_iff_getElem?.1 hm
  have hl : i < m.stor.length := by
    rcases Nat.lt_or_ge i m.stor.length with h | h
    · exact h
    · rw [List.getElem?_eq_none h] at hi; exact nomatch hi
  have hf := h.found i o hi
  have hh := h.half
  unfold lookup find
  rw [if_neg (by omega), if_neg (by omega), hf]
  simp [List.getD_eq_getElem?_getD, hi, Option.filter, ha]

theorem lookup_sound {addr : Obj → Nat} {alive : Obj → Bool} {m : Map} (h : Inv addr m) (a : Nat) :
    ∃ r, lookup addr alive m a = some r ∧ ∀ o, r = some o → some o ∈ m.stor ∧ alive o = true ∧ addr o = a := by
  unfold lookup
  by_cases hz : m.stor.length = 0
  · exact ⟨none, by rw [if_pos hz], fun o h => nomatch h⟩
  · rw [if_neg hz]
    obtain ⟨i, h1, h2, h3⟩ := find_some h hz a
    refine ⟨_, by rw [h1]; rfl, fun o ho => ?_⟩
    rw [Option.filter_eq_some_iff] at ho
    obtain ⟨ho, hal⟩ := ho
    rw [ho] at h3
    refine ⟨?_, by simpa using hal, by simpa [fits] using h3⟩
    rw [List.mem_iff_getElem?]
    exact ⟨i, by rw [getD_eq h2, ho]⟩

structure SysInv (s : Sys) : Prop where
  map : Inv s.addr s.map
  addr : ∀ o p, s.alive o = true → s.alive p = true → s.addr o = s.addr p → o = p
  present : ∀ o, s.alive o = true → s.registered o = true → some o ∈ s.map.stor
  only : ∀ o, some o ∈ s.map.stor → s.registered o = true
  ok : s.failed = false

theorem inv {s : Sys} (h : Reachable s) : SysInv s := by
  induction h with
  | init addr => exact ⟨empty_inv addr 0, nofun, nofun, nofun, rfl⟩
  | @step s s' a hr hs ih =>
    cases hs with
    | create fresh new addr =>
      rename_i o
      refine ⟨ih.map, ?_, ?_, ih.only, ih.ok⟩
      · intro x y hx hy e
        simp only at hx hy e
        split at hx <;> split at hy
        · simp_all
        · rename_i h _; exact absurd (by rw [← h]; exact e.symm) (addr y hy)
        · rename_i _ h; exact absurd (by rw [← h]; exact e) (addr x hx)
        · exact ih.addr x y hx hy e
      · intro x hx hxr
        simp only at hx hxr ⊢
        split at hx
        · rename_i h; rw [h, new] at hxr; exact nomatch hxr
        · exact ih.present x hx hxr
    | destroy ha =>
      refine ⟨ih.map, ?_, ?_, ih.only, ih.ok⟩
      · intro x y hx hy e
        simp only at hx hy e
        split at hx
        · exact nomatch hx
        · split at hy
          · exact nomatch hy
          · exact ih.addr x y hx hy e
      · intro x hx hxr
        simp only at hx hxr ⊢
        split at hx
        · exact nomatch hx
        · exact ih.present x hx hxr
    | insert ha hk hc hm =>
      rename_i o count keep m
      obtain ⟨m', h1, h2, h3, h4, h5, h6⟩ := insert_inv ih.map hc o
      rw [hm] at h1
      cases h1
      refine ⟨h2, ih.addr, ?_, ?_, ih.ok⟩
      · intro x hx hxr
        simp only at hx hxr ⊢
        by_cases hxo : x = o
        · rw [hxo]; exact h4
        · rw [if_neg hxo] at hxr
          exact h5 x (ih.present x hx hxr) (hk x hx) fun e => hxo (ih.addr x o hx ha e)
      · intro x hx
        simp only
        by_cases hxo : x = o
        · rw [if_pos hxo]
        · rw [if_neg hxo]
          rcases h6 x hx with h | h
          · exact absurd h hxo
          · exact ih.only x h
    | insert_fail ha hk hc hm =>
      rename_i o count keep
      obtain ⟨m', h1, -⟩ := insert_inv ih.map hc o
      rw [hm] at h1; exact nomatch h1
    | poll => exact ⟨ih.map, ih.addr, ih.present, ih.only, ih.ok⟩
    | deliver => exact ⟨ih.map, ih.addr, ih.present, ih.only, ih.ok⟩
    | deliver_fail hev hl =>
      rename_i o t
      obtain ⟨r, hr, -⟩ := lookup_sound (alive := s.alive) ih.map (s.addr o)
      rw [hl] at hr; exact nomatch hr

theorem events_registered {s : Sys} (h : Reachable s) : ∀ o ∈ s.events, s.registered o = true := by
  induction h with
  | init addr => exact nofun
  | @step s s' a hr hs ih =>
    cases hs with
    | insert ha hk hc hm =>
      intro x hx
      simp only
      split
      · rfl
      · exact ih x hx
    | poll ha hreg =>
      intro x hx
      simp only [List.mem_append, List.mem_singleton] at hx
      rcases hx with h | rfl
      · exact ih x h
      · exact hreg
    | deliver hev hl => intro x hx; exact ih x (by rw [hev]; exact List.mem_cons_of_mem _ hx)
    | _ => exact ih

end Verif.SocketTable
