import Verif.Spec.Futures
namespace Verif.Futures

/-- The addresses that a list of records stands for. -/
def addrs (port : Nat) (rs : List Rec) : List (Bytes × Nat) := rs.filterMap (convert port)

theorem collect_cons_none {port : Nat} {r : Rec} {rs : List Rec} {res : List (Bytes × Nat)} (h : convert port r = none) : collect port (r :: rs) res = collect port rs res := by
  simp only [collect, h]

theorem collect_cons_some {port : Nat} {r : Rec} {rs : List Rec} {res : List (Bytes × Nat)} {a : Bytes × Nat} (h : convert port r = some a) :
    collect port (r :: rs) res = if a ∈ res then collect port rs res else collect port rs (res ++ [a]) := by
  simp only [collect, h]

/-- What has been collected is a list of first occurrences. -/
structure Firsts (seen res : List (Bytes × Nat)) : Prop where
  nodup : res.Nodup
  mem : ∀ a, a ∈ res ↔ a ∈ seen
  order : res.Pairwise (fun a b => firstAt a seen < firstAt b seen)

theorem firstAt_append_mem {α : Type} [DecidableEq α] {a : α} {l m : List α} (h : a ∈ l) : firstAt a (l ++ m) = firstAt a l := by
  unfold firstAt
  rw [List.findIdx_append, if_pos]
  rw [List.findIdx_lt_length]
  exact ⟨a, h, by simp⟩

theorem firstAt_lt {α : Type} [DecidableEq α] {a : α} {l : List α} (h : a ∈ l) : firstAt a l < l.length := by
  unfold firstAt
  rw [List.findIdx_lt_length]
  exact ⟨a, h, by simp⟩

theorem firstAt_new {α : Type} [DecidableEq α] {a : α} {l : List α} (h : a ∉ l) : firstAt a (l ++ [a]) = l.length := by
  unfold firstAt
  have hl : ¬ l.findIdx (fun x => decide (x = a)) < l.length := by
    rw [List.findIdx_lt_length]
    rintro ⟨x, hx, he⟩
    simp only [decide_eq_true_eq] at he
    exact h (he ▸ hx)
  rw [List.findIdx_append, if_neg hl]
  simp

theorem firsts_step {seen res : List (Bytes × Nat)} (h : Firsts seen res) (a : Bytes × Nat) : Firsts (seen ++ [a]) (if a ∈ res then res else res ++ [a]) := by
  have hpw : res.Pairwise (fun x y => firstAt x (seen ++ [a]) < firstAt y (seen ++ [a])) := by
    refine List.Pairwise.imp_of_mem ?_ h.order
    intro x y hx hy hxy
    rw [firstAt_append_mem ((h.mem x).1 hx), firstAt_append_mem ((h.mem y).1 hy)]; exact hxy
  split
  · rename_i ha
    refine ⟨h.nodup, fun x => ?_, hpw⟩
    rw [List.mem_append, List.mem_singleton, h.mem]
    constructor
    · exact .inl
    · rintro (hx | rfl)
      · exact hx
      · exact (h.mem _).1 ha
  · rename_i ha
    refine ⟨?_, fun x => ?_, ?_⟩
    · rw [List.nodup_append]
      refine ⟨h.nodup, by simp, ?_⟩
      intro x hx y hy
      rw [List.mem_singleton] at hy
      subst hy
      exact fun e => ha (e ▸ hx)
    · rw [List.mem_append, List.mem_append, h.mem]
    · rw [List.pairwise_append]
      refine ⟨hpw, by simp, ?_⟩
      intro x hx y hy
      rw [List.mem_singleton] at hy
      subst hy
      have hx' := (h.mem x).1 hx
      rw [firstAt_append_mem hx', firstAt_new (fun e => ha ((h.mem y).2 e))]
      exact firstAt_lt hx'

theorem collect_firsts (port : Nat) (rs : List Rec) : ∀ (seen res : List (Bytes × Nat)), Firsts seen res → Firsts (seen ++ addrs port rs) (collect port rs res) := by
  induction rs with
  | nil => intro seen res h; simpa [addrs, collect] using h
  | cons r rs ih =>
    intro seen res h
    cases hc : convert port r with
    | none =>
      rw [collect_cons_none hc]
      have : addrs port (r :: rs) = addrs port rs := by unfold addrs; rw [List.filterMap_cons_none hc]
      rw [this]; exact ih seen res h
    | some a =>
      rw [collect_cons_some hc]
      have : addrs port (r :: rs) = a :: addrs port rs := by unfold addrs; rw [List.filterMap_cons_some hc]
      have e : seen ++ addrs port (r :: rs) = (seen ++ [a]) ++ addrs port rs := by rw [this]; simp
      rw [e]
      have hs := firsts_step h a
      split at hs
      · rename_i ha; rw [if_pos ha]; exact ih _ _ hs
      · rename_i ha; rw [if_neg ha]; exact ih _ _ hs

theorem collect_query (port : Nat) (rs : List Rec) : Firsts (addrs port rs) (collect port rs []) := by
  have := collect_firsts port rs [] [] ⟨List.nodup_nil, fun _ => Iff.rfl, List.Pairwise.nil⟩
  simpa using this

/-! ## Files -/

theorem int64_small {n : Int} (h0 : 0 ≤ n) (h1 : n < 2 ^ 63) : int64 n = n := by
  unfold int64
  have : n % 2 ^ 64 = n := by omega
  rw [this, if_pos h1]

theorem readLoop_honest {file : Bytes} {limit offset : Nat} (hl : limit < 2 ^ 63) (ho : offset ≤ file.length) {pos : Nat} {rs : Reads} (h : Honest file limit offset pos rs) :
    pos ≤ limit → offset + pos ≤ file.length →
    readLoop limit file.length offset rs ((file.drop offset).take pos) = .ok ((file.drop offset).take limit) := by
  have hlen : ∀ p, offset + p ≤ file.length → ((file.drop offset).take p).length = p := by
    intro p hp; rw [List.length_take, List.length_drop]; omega
  induction h with
  | done pos rs hd =>
    intro h1 h2
    have hr : reserve limit file.length offset pos = 0 := by
      unfold reserve; rw [int64_small (by omega) (by omega)]; omega
    rw [readLoop.eq_def]
    simp only [hlen pos h2, hr, if_true]
    congr 1
    rcases hd with hd | rfl
    · rw [List.take_of_length_le (by rw [List.length_drop]; omega), List.take_of_length_le (by rw [List.length_drop]; omega)]
    · rfl
  | more pos k rs hk hkl hki hkf _ ih =>
    intro h1 h2
    have hr : 0 < reserve limit file.length offset pos := by
      unfold reserve; rw [int64_small (by omega) (by omega)]; omega
    have hbs : (file.drop (offset + pos)).take k ≠ [] := by
      intro e
      have := congrArg List.length e
      rw [List.length_take, List.length_drop] at this
      simp only [List.length_nil] at this; omega
    have happ : (file.drop offset).take pos ++ (file.drop (offset + pos)).take k = (file.drop offset).take (pos + k) := by
      rw [List.take_add, List.drop_drop]
    rw [readLoop.eq_def]
    simp only [hlen pos h2]
    rw [if_neg (by omega), if_neg (by omega), if_neg hbs, happ]
    exact ih hkl (by omega)

theorem honest_exists (file : Bytes) (limit offset : Nat) (ho : offset ≤ file.length) : ∀ pos, pos ≤ limit → offset + pos ≤ file.length → ∃ rs, Honest file limit offset pos rs := by
  have key : ∀ m pos, min limit (file.length - offset) - pos = m → pos ≤ limit → offset + pos ≤ file.length → ∃ rs, Honest file limit offset pos rs := by
    intro m
    induction m with
    | zero =>
      intro pos hm h1 h2
      exact ⟨[], .done pos [] (by omega)⟩
    | succ m ih =>
      intro pos hm h1 h2
      obtain ⟨rs, h⟩ := ih (pos + 1) (by omega) (by omega) (by omega)
      exact ⟨_, .more pos 1 rs (by omega) (by omega) (by omega) (by omega) h⟩
  intro pos
  exact key _ pos rfl

/-- Whatever is read, it is not more than asked for, as long as `read()` does not return more than asked for. -/
def Bounded (limit : Nat) (size offset : Int) : Reads → Nat → Prop
  | [], _ => True
  | none :: _, _ => True
  | some bs :: rs, n => (bs.length : Int) ≤ max 0 (reserve limit size offset n) ∧ Bounded limit size offset rs (n + bs.length)

theorem readLoop_bound {limit : Nat} (hl : limit < 2 ^ 63) {size offset : Int} {rs : Reads} : ∀ {data out : Bytes}, data.length ≤ limit → Bounded limit size offset rs data.length →
    readLoop limit size offset rs data = .ok out → out.length ≤ limit := by
  induction rs with
  | nil =>
    intro data out hd _ h
    rw [readLoop.eq_def] at h
    simp only at h
    split at h
    · injection h with h; subst h; exact hd
    · split at h <;> exact nomatch h
  | cons r rs ih =>
    intro data out hd hb h
    rw [readLoop.eq_def] at h
    simp only at h
    split at h
    · injection h with h; subst h; exact hd
    · split at h
      · exact nomatch h
      · rename_i h0 h1
        cases r with
        | none => exact nomatch h
        | some bs =>
          simp only at h
          split at h
          · injection h with h; subst h; exact hd
          · obtain ⟨hb1, hb2⟩ := hb
            refine ih (data := data ++ bs) ?_ ?_ h
            · rw [List.length_append]
              unfold reserve at hb1 h0 h1
              rw [int64_small (by omega) (by omega)] at hb1 h0 h1
              omega
            · rw [List.length_append]; exact hb2

end Verif.Futures
