import Verif.Proofs.Pool
/-!
# What steps of pools change
-/
namespace Verif.Pool

theorem step_trace {s p : Sys} {a : Act} (h : step s a = some p) : ∃ l, p.trace = l ++ s.trace := by
  have hal : ∀ h i u w, ∃ l, (allocate s h i u w).trace = l ++ s.trace := by
    intro h i u w
    unfold allocate
    dsimp only
    split
    · exact ⟨_ :: _, rfl⟩
    · exact ⟨_ :: _, rfl⟩
  cases a with
  | reload c => cases h; exact ⟨[_], rfl⟩
  | tick n => cases h; exact ⟨[], rfl⟩
  | read o => cases h; exact ⟨[], rfl⟩
  | allocate o u w =>
    obtain ⟨c, -, rfl⟩ := Option.map_eq_some_iff.1 h; exact hal _ _ _ _
  | allocateDefault o =>
    obtain ⟨c, -, rfl⟩ := Option.map_eq_some_iff.1 h; exact hal _ _ _ _
  | allocateSecondary o =>
    simp only [step] at h
    split at h
    · obtain ⟨c, -, rfl⟩ := Option.map_eq_some_iff.1 h; exact hal _ _ _ _
    · cases h
  | allocateTertiary o =>
    simp only [step] at h
    split at h
    · obtain ⟨c, -, rfl⟩ := Option.map_eq_some_iff.1 h; exact hal _ _ _ _
    · cases h
  | giveBack o id =>
    simp only [step] at h
    split at h
    · obtain ⟨c, -, rfl⟩ := Option.map_eq_some_iff.1 h
      unfold giveBack
      dsimp only
      split
      · exact ⟨[_], rfl⟩
      · split
        · exact ⟨[_], rfl⟩
        · exact ⟨_ :: _, rfl⟩
    · cases h
  | move o o' id => simp only [step] at h; split at h <;> cases h; exact ⟨[_], rfl⟩
  | connect o id => simp only [step] at h; split at h <;> cases h; exact ⟨[], rfl⟩
  | execute o id _ _ => simp only [step] at h; split at h <;> cases h; exact ⟨[_], rfl⟩
  | reset o id ok => simp only [step] at h; split at h <;> cases h; exact ⟨[_], rfl⟩
  | destroy o id => simp only [step] at h; split at h <;> cases h; exact ⟨[_], rfl⟩

theorem giveBack_same (s : Sys) (h id : Nat) (c : Conf) :
    (giveBack s h id c).kind = s.kind ∧ (giveBack s h id c).conf = s.conf ∧ (giveBack s h id c).next = s.next ∧ (giveBack s h id c).conn = s.conn ∧
    (∀ x, (giveBack s h id c).snap x = some c' → s.snap x = some c') ∧ (∀ x ∈ s.owned, x ≠ (h, id) → x ∈ (giveBack s h id c).owned) := by
  have hsn : ∀ x, (if x = h then none else s.snap x) = some c' → s.snap x = some c' := by
    intro x hx
    split at hx
    · cases hx
    · exact hx
  unfold giveBack
  dsimp only
  split
  · exact ⟨rfl, rfl, rfl, rfl, hsn, fun _ hx _ => hx⟩
  · split
    · exact ⟨rfl, rfl, rfl, rfl, hsn, fun _ hx _ => hx⟩
    · exact ⟨rfl, rfl, rfl, rfl, hsn, fun x hx hn => List.mem_filter.2 ⟨hx, by simpa using hn⟩⟩

/-- What an allocation changes. -/
structure Given (s p : Sys) (o id : Nat) (uri pw : Bytes) (new : Bool) : Prop where
  ev : Ev.given o id uri pw new ∈ p.trace
  kind : p.kind = s.kind
  conf : p.conf = s.conf
  snap : ∀ x c, p.snap x = some c → s.snap x = some c
  keep : ∀ x, x ≠ o → p.snap x = s.snap x
  owned : p.owned = (o, id) :: s.owned
  fresh : new = true → id = s.next ∧ p.next = s.next + 1 ∧ p.conn = fun i => if i = s.next then { uri := uri, password := pw } else s.conn i
  old : new = false → p.next = s.next ∧ p.conn = s.conn ∧ id ∈ s.pool.map (·.id) ∧ (s.conn id).uri = uri

theorem allocate_given (s : Sys) (h idle : Nat) (uri pw : Bytes) : ∃ id new, (allocate s h idle uri pw).trace.head? = some (.given h id uri pw new) ∧
    Given s (allocate s h idle uri pw) h id uri pw new := by
  have hsn : ∀ x c', (if x = h then none else s.snap x) = some c' → s.snap x = some c' := by
    intro x c' hx
    split at hx
    · cases hx
    · exact hx
  unfold allocate
  dsimp only
  cases hm : (findMatch s.conn uri s.pool).1 with
  | some e =>
    obtain ⟨h1, a, b, h2, -⟩ := findMatch_some hm
    refine ⟨e.id, false, rfl, ⟨by simp, rfl, rfl, hsn, fun _ hx => if_neg hx, rfl, by simp, fun _ => ⟨rfl, rfl, ?_, h1⟩⟩⟩
    rw [h2]; simp
  | none => exact ⟨s.next, true, rfl, ⟨by simp, rfl, rfl, hsn, fun _ hx => if_neg hx, rfl, fun _ => ⟨rfl, rfl, rfl⟩, by simp⟩⟩

/-- The one who has a connection is the only one. -/
theorem owner_unique {s : Sys} (hi : Inv s) {h h' id : Nat} (h1 : (h, id) ∈ s.owned) (h2 : (h', id) ∈ s.owned) : h = h' := by
  have a := (hi.own _ _).1 h1
  rw [(hi.own _ _).1 h2] at a
  cases a; rfl

theorem owned_lt {s : Sys} (hi : Inv s) {h id : Nat} (h1 : (h, id) ∈ s.owned) : id < s.next := by
  have a := (hi.own _ _).1 h1
  rcases Nat.lt_or_ge id s.next with h | h
  · exact h
  · rw [(hi.next id).2 h] at a; cases a

theorem pooled_lt {s : Sys} (hi : Inv s) {id : Nat} (h1 : id ∈ s.pool.map (·.id)) : id < s.next ∧ ∀ h, (h, id) ∉ s.owned := by
  have a := (hi.pool _).1 h1
  constructor
  · rcases Nat.lt_or_ge id s.next with h | h
    · exact h
    · rw [(hi.next id).2 h] at a; cases a
  · intro h hh
    rw [(hi.own _ _).1 hh] at a; cases a

end Verif.Pool
