import Verif.Spec.Multicast
/-!
# Proofs about multicast groups
-/
namespace Verif.Multicast
open Verif.Spec.Multicast

theorem take_mapped (m : Bytes) : m.take 12 = Ipv6.mapped ↔ Ipv6.mapped <+: m := by
  rw [List.prefix_iff_eq_take]
  exact eq_comm

theorem about_group {ifs : Interfaces} {m i : Bytes} {g : Group} : about ifs m i g ↔ group m (ifs i) = g := by
  obtain ⟨v4, a, ix⟩ := g
  unfold about group
  have e : ([0, 0, 0, 0, 0, 0, 0, 0, 0, 0, 0xFF, 0xFF] : Bytes) = Ipv6.mapped := rfl
  rw [e]
  by_cases h : m.take 12 = Ipv6.mapped
  · rw [if_pos h]
    have h' := (take_mapped m).1 h
    simp only [Group.mk.injEq]
    constructor
    · rintro ⟨rfl, ⟨rfl, rfl⟩ | ⟨rfl, rfl, hn⟩⟩
      · exact ⟨rfl, by simp [Ipv6.mapped], rfl⟩
      · exact absurd h' hn
    · rintro ⟨rfl, rfl, rfl⟩
      refine ⟨rfl, .inl ⟨rfl, ?_⟩⟩
      rw [← h]
      exact (List.take_append_drop 12 m).symm
  · rw [if_neg h]
    have h' := fun x => h ((take_mapped m).2 x)
    simp only [Group.mk.injEq]
    constructor
    · rintro ⟨rfl, ⟨rfl, rfl⟩ | ⟨rfl, rfl, hn⟩⟩
      · exact absurd (List.prefix_append _ _) h'
      · exact ⟨rfl, rfl, rfl⟩
    · rintro ⟨rfl, rfl, rfl⟩
      exact ⟨rfl, .inr ⟨rfl, rfl, h'⟩⟩

theorem group_v4 (m : Bytes) (ix : Nat) (v4 : Bool) : (group m ix).v4 = v4 ↔ (v4 = true ↔ [0, 0, 0, 0, 0, 0, 0, 0, 0, 0, 0xFF, 0xFF] <+: m) := by
  have e : ([0, 0, 0, 0, 0, 0, 0, 0, 0, 0, 0xFF, 0xFF] : Bytes) = Ipv6.mapped := rfl
  rw [e, ← take_mapped]
  unfold group
  by_cases h : m.take 12 = Ipv6.mapped <;> cases v4 <;> simp [h]

/-- What a call of `join` leaves behind. -/
theorem join_cases (ifs : Interfaces) (k : Sock) (m i : Bytes) (t : UInt8) (l f1 f2 f3 : Bool) :
    let r := join ifs k m i t l f1 f2 f3
    let g := group m (ifs i)
    (r.2 = true ∧ r.1 = k) ∨
    (g ∉ k.groups ∧ isMulticast g = true ∧ ifs i ≠ 0 ∧ r.1.groups = g :: k.groups ∧ (∀ b, b ≠ g.v4 → r.1.ttl b = k.ttl b ∧ r.1.loop b = k.loop b) ∧
      (r.2 = false → r.1.ttl g.v4 = t.toNat ∧ r.1.loop g.v4 = if l then 1 else 0)) := by
  simp only
  unfold join
  by_cases h : 0 ∈ i ∨ ifs i = 0
  · left; simp [h]
  rw [if_neg h]
  by_cases h1 : f1 = true ∨ ¬ isMulticast (group m (ifs i)) = true ∨ group m (ifs i) ∈ k.groups
  · left
    have hadd : add k (group m (ifs i)) f1 = none := by simp only [add, if_pos h1]
    simp [hadd]
  right
  have hadd : add k (group m (ifs i)) f1 = some { k with groups := group m (ifs i) :: k.groups } := by
    simp only [add, if_neg h1]
  have h1' : ¬ f1 = true ∧ isMulticast (group m (ifs i)) = true ∧ group m (ifs i) ∉ k.groups := by
    refine ⟨fun x => h1 (.inl x), ?_, fun x => h1 (.inr (.inr x))⟩
    cases hq : isMulticast (group m (ifs i))
    · exact absurd (.inr (.inl (by simp [hq]))) h1
    · rfl
  refine ⟨h1'.2.2, h1'.2.1, fun x => h (.inr x), ?_⟩
  simp only [hadd]
  cases f2 <;> cases f3 <;> simp +contextual [setTtl, setLoop]

theorem leave_cases (ifs : Interfaces) (k : Sock) (m i : Bytes) (f : Bool) :
    let r := leave ifs k m i f
    let g := group m (ifs i)
    (r.2 = true ∧ r.1 = k) ∨ (r.2 = false ∧ ifs i ≠ 0 ∧ g ∈ k.groups ∧ r.1 = { k with groups := k.groups.filter (· ≠ g) }) := by
  simp only
  unfold leave
  by_cases h : 0 ∈ i ∨ ifs i = 0
  · left; simp [h]
  rw [if_neg h]
  by_cases h1 : f = true ∨ group m (ifs i) ∉ k.groups
  · left; simp [dropGroup, h1]
  right
  have : dropGroup k (group m (ifs i)) f = some { k with groups := k.groups.filter (· ≠ group m (ifs i)) } := by
    simp only [dropGroup, if_neg h1]
  simp only [this, true_and]
  refine ⟨fun x => h (.inr x), ?_, trivial⟩
  exact Decidable.not_not.1 fun x => h1 (.inr x)

/-- Calls, the last of which is known. -/
theorem run_snoc (ifs : Interfaces) (k : Sock) (cs : List Call) (c : Call) :
    run ifs k (cs ++ [c]) = ((c.exec ifs (run ifs k cs).1).1, (run ifs k cs).2 ++ [(c, (c.exec ifs (run ifs k cs).1).2)]) := by
  induction cs generalizing k with
  | nil => rfl
  | cons d cs ih => simp only [List.cons_append, run, ih]

theorem snocInd {P : List α → Prop} (h0 : P []) (h : ∀ l a, P l → P (l ++ [a])) (l : List α) : P l := by
  have : ∀ l : List α, P l.reverse := by
    intro l
    induction l with
    | nil => exact h0
    | cons a l ih => rw [List.reverse_cons]; exact h _ _ ih
  simpa using this l.reverse

structure Known (ifs : Interfaces) (k : Sock) (h : List (Call × Bool)) : Prop where
  joined : ∀ g, Joined ifs g h → g ∈ k.groups
  left : ∀ g, Left ifs g h → g ∉ k.groups
  options : ∀ v4 t l, Options v4 t l h → k.ttl v4 = t.toNat ∧ k.loop v4 = if l then 1 else 0

theorem snoc_inj {l l' : List α} {a b : α} : l ++ [a] = l' ++ [b] ↔ l = l' ∧ a = b := by
  constructor
  · intro h
    have := List.append_inj' h rfl
    simpa using this
  · rintro ⟨rfl, rfl⟩; rfl

theorem joined_join {ifs : Interfaces} {g : Group} {h : List (Call × Bool)} {m i t l f1 f2 f3 b}
    (hj : Joined ifs g (h ++ [(.join m i t l f1 f2 f3, b)])) : (about ifs m i g ∧ b = false) ∨ (¬ about ifs m i g ∧ Joined ifs g h) := by
  generalize he : h ++ [(Call.join m i t l f1 f2 f3, b)] = h' at hj
  cases hj with
  | now ha => obtain ⟨rfl, e⟩ := snoc_inj.1 he; cases e; exact .inl ⟨ha, rfl⟩
  | other hj ha => obtain ⟨rfl, e⟩ := snoc_inj.1 he; cases e; exact .inr ⟨ha, hj⟩
  | apart hj ha => obtain ⟨rfl, e⟩ := snoc_inj.1 he; cases e
  | failed hj => obtain ⟨rfl, e⟩ := snoc_inj.1 he; cases e

theorem joined_leave {ifs : Interfaces} {g : Group} {h : List (Call × Bool)} {m i f b}
    (hj : Joined ifs g (h ++ [(.leave m i f, b)])) : Joined ifs g h ∧ (b = true ∨ ¬ about ifs m i g) := by
  generalize he : h ++ [(Call.leave m i f, b)] = h' at hj
  cases hj with
  | now ha => obtain ⟨rfl, e⟩ := snoc_inj.1 he; cases e
  | other hj ha => obtain ⟨rfl, e⟩ := snoc_inj.1 he; cases e
  | apart hj ha => obtain ⟨rfl, e⟩ := snoc_inj.1 he; cases e; exact ⟨hj, .inr ha⟩
  | failed hj => obtain ⟨rfl, e⟩ := snoc_inj.1 he; cases e; exact ⟨hj, .inl rfl⟩

theorem left_join {ifs : Interfaces} {g : Group} {h : List (Call × Bool)} {m i t l f1 f2 f3 b}
    (hj : Left ifs g (h ++ [(.join m i t l f1 f2 f3, b)])) : ¬ about ifs m i g ∧ Left ifs g h := by
  generalize he : h ++ [(Call.join m i t l f1 f2 f3, b)] = h' at hj
  cases hj with
  | never => simp at he
  | now ha => obtain ⟨rfl, e⟩ := snoc_inj.1 he; cases e
  | other hj ha => obtain ⟨rfl, e⟩ := snoc_inj.1 he; cases e; exact ⟨ha, hj⟩
  | stays hj => obtain ⟨rfl, e⟩ := snoc_inj.1 he; cases e

theorem left_leave {ifs : Interfaces} {g : Group} {h : List (Call × Bool)} {m i f b}
    (hj : Left ifs g (h ++ [(.leave m i f, b)])) : (about ifs m i g ∧ b = false) ∨ Left ifs g h := by
  generalize he : h ++ [(Call.leave m i f, b)] = h' at hj
  cases hj with
  | never => simp at he
  | now ha => obtain ⟨rfl, e⟩ := snoc_inj.1 he; cases e; exact .inl ⟨ha, rfl⟩
  | other hj ha => obtain ⟨rfl, e⟩ := snoc_inj.1 he; cases e
  | stays hj => obtain ⟨rfl, e⟩ := snoc_inj.1 he; cases e; exact .inr hj

theorem options_join {v4 : Bool} {t' : UInt8} {l' : Bool} {h : List (Call × Bool)} {m i t l f1 f2 f3 b} (ix : Nat)
    (hj : Options v4 t' l' (h ++ [(.join m i t l f1 f2 f3, b)])) :
    ((group m ix).v4 = v4 ∧ b = false ∧ t' = t ∧ l' = l) ∨ ((group m ix).v4 ≠ v4 ∧ Options v4 t' l' h) := by
  generalize he : h ++ [(Call.join m i t l f1 f2 f3, b)] = h' at hj
  cases hj with
  | now ha => obtain ⟨rfl, e⟩ := snoc_inj.1 he; cases e; exact .inl ⟨(group_v4 _ _ _).2 ha, rfl, rfl, rfl⟩
  | other hj ha => obtain ⟨rfl, e⟩ := snoc_inj.1 he; cases e; exact .inr ⟨fun x => ha ((group_v4 _ _ _).1 x), hj⟩
  | leave hj => obtain ⟨rfl, e⟩ := snoc_inj.1 he; cases e

theorem options_leave {v4 : Bool} {t' : UInt8} {l' : Bool} {h : List (Call × Bool)} {m i f b}
    (hj : Options v4 t' l' (h ++ [(.leave m i f, b)])) : Options v4 t' l' h := by
  generalize he : h ++ [(Call.leave m i f, b)] = h' at hj
  cases hj with
  | now ha => obtain ⟨rfl, e⟩ := snoc_inj.1 he; cases e
  | other hj ha => obtain ⟨rfl, e⟩ := snoc_inj.1 he; cases e
  | leave hj => obtain ⟨rfl, e⟩ := snoc_inj.1 he; cases e; exact hj

theorem known (ifs : Interfaces) (cs : List Call) : Known ifs (run ifs {} cs).1 (run ifs {} cs).2 := by
  induction cs using snocInd with
  | h0 =>
    refine ⟨fun g h => ?_, fun g _ => by simp [run], fun v4 t l h => ?_⟩
    · generalize he : (run ifs {} []).2 = h' at h
      cases h <;> simp [run] at he
    · generalize he : (run ifs {} []).2 = h' at h
      cases h <;> simp [run] at he
  | h cs c ih =>
    rw [run_snoc]
    generalize run ifs {} cs = r at ih
    obtain ⟨k, h⟩ := r
    simp only at ih ⊢
    cases c with
    | join m i t l f1 f2 f3 =>
      simp only [Call.exec]
      have hc := join_cases ifs k m i t l f1 f2 f3
      simp only at hc
      generalize join ifs k m i t l f1 f2 f3 = r at hc
      obtain ⟨k', b⟩ := r
      simp only at hc ⊢
      rcases hc with ⟨rfl, rfl⟩ | ⟨hn, hmc, hi, hg, hother, hopt⟩
      · refine ⟨fun g hj => ?_, fun g hj => ih.left g (left_join hj).2, fun v4 t l ho => ?_⟩
        · rcases joined_join hj with ⟨-, h'⟩ | ⟨-, hj⟩
          · simp at h'
          · exact ih.joined g hj
        · rcases options_join (ifs i) ho with ⟨-, h', -⟩ | ⟨-, ho⟩
          · simp at h'
          · exact ih.options _ _ _ ho
      · refine ⟨fun g hj => ?_, fun g hj => ?_, fun v4 t l ho => ?_⟩
        · rw [hg]
          rcases joined_join hj with ⟨ha, -⟩ | ⟨-, hj⟩
          · rw [about_group.1 ha]; exact List.mem_cons_self ..
          · exact List.mem_cons_of_mem _ (ih.joined g hj)
        · obtain ⟨ha, hl⟩ := left_join hj
          rw [hg]
          intro hm
          rcases List.mem_cons.1 hm with hm | hm
          · exact ha (about_group.2 hm.symm)
          · exact ih.left g hl hm
        · rcases options_join (ifs i) ho with ⟨rfl, rfl, rfl, rfl⟩ | ⟨hne, ho⟩
          · exact hopt rfl
          · obtain ⟨h1, h2⟩ := hother v4 (Ne.symm hne)
            rw [h1, h2]
            exact ih.options _ _ _ ho
    | leave m i f =>
      simp only [Call.exec]
      have hc := leave_cases ifs k m i f
      simp only at hc
      generalize leave ifs k m i f = r at hc
      obtain ⟨k', b⟩ := r
      simp only at hc ⊢
      rcases hc with ⟨rfl, rfl⟩ | ⟨rfl, hi, hmem, rfl⟩
      · refine ⟨fun g hj => ih.joined g (joined_leave hj).1, fun g hj => ?_, fun v4 t l ho => ih.options _ _ _ (options_leave ho)⟩
        rcases left_leave hj with ⟨-, h'⟩ | hl
        · simp at h'
        · exact ih.left g hl
      · refine ⟨fun g hj => ?_, fun g hj => ?_, fun v4 t l ho => ih.options _ _ _ (options_leave ho)⟩
        · obtain ⟨hj, h' | ha⟩ := joined_leave hj
          · simp at h'
          · refine List.mem_filter.2 ⟨ih.joined g hj, ?_⟩
            simp only [decide_eq_true_eq, ne_eq]
            exact fun e => ha (about_group.2 e.symm)
        · intro hm
          obtain ⟨hm, hne⟩ := List.mem_filter.1 hm
          simp only [decide_eq_true_eq, ne_eq] at hne
          rcases left_leave hj with ⟨ha, -⟩ | hl
          · exact hne (about_group.1 ha).symm
          · exact ih.left g hl hm

theorem join_ok (ifs : Interfaces) (k : Sock) (m i : Bytes) (t : UInt8) (l f1 f2 f3 : Bool) :
    (join ifs k m i t l f1 f2 f3).2 = false ↔ 0 ∉ i ∧ ifs i ≠ 0 ∧ isMulticast (group m (ifs i)) = true ∧ group m (ifs i) ∉ k.groups ∧
      f1 = false ∧ f2 = false ∧ f3 = false := by
  unfold join
  by_cases h : 0 ∈ i ∨ ifs i = 0
  · rw [if_pos h]
    simp only [Bool.true_eq_false, false_iff]
    rintro ⟨h1, h2, -⟩
    rcases h with h | h
    · exact h1 h
    · exact h2 h
  rw [if_neg h]
  have h0 : 0 ∉ i ∧ ifs i ≠ 0 := ⟨fun x => h (.inl x), fun x => h (.inr x)⟩
  by_cases h1 : f1 = true ∨ ¬ isMulticast (group m (ifs i)) = true ∨ group m (ifs i) ∈ k.groups
  · have hadd : add k (group m (ifs i)) f1 = none := by simp only [add, if_pos h1]
    simp only [hadd, Bool.true_eq_false, false_iff]
    rintro ⟨-, -, h2, h3, h4, -⟩
    rcases h1 with h1 | h1 | h1
    · simp [h4] at h1
    · exact h1 h2
    · exact h3 h1
  · have hadd : add k (group m (ifs i)) f1 = some { k with groups := group m (ifs i) :: k.groups } := by simp only [add, if_neg h1]
    have h2 : isMulticast (group m (ifs i)) = true := Decidable.not_not.1 fun x => h1 (.inr (.inl x))
    have h3 : group m (ifs i) ∉ k.groups := fun x => h1 (.inr (.inr x))
    have h4 : f1 = false := by cases f1; rfl; exact absurd (.inl rfl) h1
    simp only [hadd]
    cases f2 <;> cases f3 <;> simp [setTtl, setLoop, h0, h2, h3, h4]

theorem leave_ok (ifs : Interfaces) (k : Sock) (m i : Bytes) (f : Bool) :
    (leave ifs k m i f).2 = false ↔ 0 ∉ i ∧ ifs i ≠ 0 ∧ group m (ifs i) ∈ k.groups ∧ f = false := by
  unfold leave
  by_cases h : 0 ∈ i ∨ ifs i = 0
  · rw [if_pos h]
    simp only [Bool.true_eq_false, false_iff]
    rintro ⟨h1, h2, -⟩
    rcases h with h | h
    · exact h1 h
    · exact h2 h
  rw [if_neg h]
  have h0 : 0 ∉ i ∧ ifs i ≠ 0 := ⟨fun x => h (.inl x), fun x => h (.inr x)⟩
  by_cases h1 : f = true ∨ group m (ifs i) ∉ k.groups
  · have : dropGroup k (group m (ifs i)) f = none := by simp only [dropGroup, if_pos h1]
    simp only [this, Bool.true_eq_false, false_iff]
    rintro ⟨-, -, h3, h4⟩
    rcases h1 with h1 | h1
    · simp [h4] at h1
    · exact h1 h3
  · have : dropGroup k (group m (ifs i)) f = some { k with groups := k.groups.filter (· ≠ group m (ifs i)) } := by
      simp only [dropGroup, if_neg h1]
    simp only [this, true_iff]
    refine ⟨h0.1, h0.2, Decidable.not_not.1 fun x => h1 (.inr x), ?_⟩
    cases f; rfl; exact absurd (.inl rfl) h1

end Verif.Multicast
