import Verif.Model.Utils
namespace Verif.Utils

theorem u64_eq (n : Int) (h0 : -2 ^ 63 ≤ n) (h1 : n < 2 ^ 63) : (u64 n : Int) = if 0 ≤ n then n else n + 2 ^ 64 := by
  unfold u64
  by_cases h : 0 ≤ n
  · rw [if_pos h]; omega
  · rw [if_neg h]; omega

theorem u32_eq (n : Int) (h0 : -2 ^ 31 ≤ n) (h1 : n < 2 ^ 31) : (u32 n : Int) = if 0 ≤ n then n else n + 2 ^ 32 := by
  unfold u32
  by_cases h : 0 ≤ n
  · rw [if_pos h]; omega
  · rw [if_neg h]; omega

theorem s64_small (n : Nat) (h : n < 2 ^ 63) : s64 n = n := if_pos h

theorem s32_small (n : Nat) (h : n < 2 ^ 31) : s32 n = n := if_pos h

theorem s32_big (n : Nat) (h : ¬ n < 2 ^ 31) : s32 n = n - 2 ^ 32 := if_neg h

/-- The sum before the division, as an integer. -/
theorem shifted_eq (ns : Int) (h0 : -2 ^ 63 ≤ ns) (h1 : ns < 2 ^ 63) :
    (((u64 ns + 9223372036000000000) % 2 ^ 64 : Nat) : Int) =
      if -9223372036000000000 ≤ ns then ns + 9223372036000000000 else ns + 9223372036000000000 + 2 ^ 64 := by
  have h := u64_eq ns h0 h1
  by_cases hp : 0 ≤ ns
  · rw [if_pos hp] at h; rw [if_pos (by omega)]; omega
  · rw [if_neg hp] at h
    by_cases hq : -9223372036000000000 ≤ ns
    · rw [if_pos hq]; omega
    · rw [if_neg hq]; omega

theorem timespec_eq (ns : Int) (h0 : -2 ^ 63 ≤ ns) (h1 : ns < 2 ^ 63) (S : Int)
    (hS : S = if -9223372036000000000 ≤ ns then ns + 9223372036000000000 else ns + 9223372036000000000 + 2 ^ 64) :
    timespec_from_system_time ns = ⟨S / 1000000000 - 9223372036, S % 1000000000⟩ := by
  have h := shifted_eq ns h0 h1
  rw [← hS] at h
  unfold timespec_from_system_time
  simp only
  rw [s64_small _ (by omega), s64_small _ (by omega)]
  generalize hg : (u64 ns + 9223372036000000000) % 2 ^ 64 = m at h ⊢
  rw [← h]
  simp

theorem reduce360_eq (t : Int) (h0 : -2 ^ 31 ≤ t) (h1 : t < 2 ^ 31) :
    reduce360 t = (if -2147483160 ≤ t then t + 2147483160 else t + 2147483160 + 2 ^ 32) % 360 := by
  have h := u32_eq t h0 h1
  unfold reduce360
  rw [s32_small _ (by omega)]
  by_cases hp : 0 ≤ t
  · rw [if_pos hp] at h; rw [if_pos (by omega)]; omega
  · rw [if_neg hp] at h
    by_cases hq : -2147483160 ≤ t
    · rw [if_pos hq]; omega
    · rw [if_neg hq]; omega

theorem reduce180_eq (t : Int) (h0 : -2 ^ 31 ≤ t) (h1 : t < 2 ^ 31) :
    reduce180 t = (if -2147483339 ≤ t then t + 2147483339 else t + 2147483339 + 2 ^ 32) % 360 - 179 := by
  have h := u32_eq t h0 h1
  have key : ∀ m : Nat, m < 360 → s32 (u32 ((m : Int) - 179)) = (m : Int) - 179 := by
    intro m hm
    have := u32_eq ((m : Int) - 179) (by omega) (by omega)
    by_cases hp : 0 ≤ (m : Int) - 179
    · rw [if_pos hp] at this; rw [s32_small _ (by omega), this]
    · rw [if_neg hp] at this; rw [s32_big _ (by omega), this]; omega
  unfold reduce180
  rw [key _ (by omega)]
  by_cases hp : 0 ≤ t
  · rw [if_pos hp] at h; rw [if_pos (by omega)]; omega
  · rw [if_neg hp] at h
    by_cases hq : -2147483339 ≤ t
    · rw [if_pos hq]; omega
    · rw [if_neg hq]; omega

theorem fnb_eq (pre bl t : Bytes) (c : Byte) (hb : ∀ x ∈ bl, isBlank x = true) (hc : isBlank c = false) :
    find_not_blank (pre ++ bl ++ c :: t) pre.length = some (pre.length + bl.length) := by
  unfold find_not_blank
  rw [List.append_assoc, List.drop_left, List.findIdx?_append]
  have h1 : List.findIdx? (fun c => !isBlank c) bl = none := by
    rw [List.findIdx?_eq_none_iff]; intro x hx; simp [hb x hx]
  rw [h1]
  simp [List.findIdx?_cons, hc]
  omega

theorem fnb_past (text : Bytes) (pos : Nat) (h : text.length ≤ pos) : find_not_blank text pos = none := by
  unfold find_not_blank
  rw [List.drop_eq_nil_of_le h]; rfl

theorem fc_eq (pre x t : Bytes) (d : Byte) (hd : d ∉ x) :
    find_char (pre ++ x ++ d :: t) pre.length d = some (pre.length + x.length) := by
  unfold find_char
  rw [List.append_assoc, List.drop_left, List.findIdx?_append]
  have h1 : List.findIdx? (fun c => c == d) x = none := by
    rw [List.findIdx?_eq_none_iff]; intro y hy; simp; rintro rfl; exact hd hy
  rw [h1]
  simp [List.findIdx?_cons]
  omega

theorem fc_none (pre x : Bytes) (d : Byte) (hd : d ∉ x) : find_char (pre ++ x) pre.length d = none := by
  unfold find_char
  rw [List.drop_left]
  have h1 : List.findIdx? (fun c => c == d) x = none := by
    rw [List.findIdx?_eq_none_iff]; intro y hy; simp; rintro rfl; exact hd hy
  rw [h1]; rfl

theorem rfnb_eq (a bl rest : Bytes) (c : Byte) (stop : Nat) (hs : stop = (a ++ [c] ++ bl).length)
    (hb : ∀ x ∈ bl, isBlank x = true) (hc : isBlank c = false) :
    rfind_not_blank (a ++ [c] ++ bl ++ rest) stop = some a.length := by
  unfold rfind_not_blank
  rw [hs, List.take_left]
  have h1 : (a ++ [c] ++ bl).reverse = bl.reverse ++ c :: a.reverse := by simp
  rw [h1, List.findIdx?_append]
  have h2 : List.findIdx? (fun c => !isBlank c) bl.reverse = none := by
    rw [List.findIdx?_eq_none_iff]; intro x hx; simp [hb x (by simpa using hx)]
  rw [h2]
  simp [List.findIdx?_cons, hc]

/-- A segment together with the blanks around it. -/
structure Cell where
  left : Bytes
  seg : Bytes
  right : Bytes

def Cell.text (c : Cell) : Bytes := c.left ++ c.seg ++ c.right

structure Cell.Good (d : Byte) (c : Cell) : Prop where
  left_blank : ∀ x ∈ c.left, isBlank x = true
  right_blank : ∀ x ∈ c.right, isBlank x = true
  right_delim : d ∉ c.right
  seg_delim : d ∉ c.seg
  head : ∃ x t, c.seg = x :: t ∧ isBlank x = false
  last : ∃ t x, c.seg = t ++ [x] ∧ isBlank x = false

/-- One iteration on a well-formed piece of text that ends at `epos`. -/
theorem loop_step (pre : Bytes) (c : Cell) (tail text : Bytes) (d : Byte) (limit : Nat) (segs : List Bytes)
    (hl : ∀ x ∈ c.left, isBlank x = true) (hr : ∀ x ∈ c.right, isBlank x = true)
    (hh : ∃ x t, c.seg = x :: t ∧ isBlank x = false) (hla : ∃ t x, c.seg = t ++ [x] ∧ isBlank x = false)
    (ht : text = pre ++ c.text ++ tail)
    (he : segment_end text d limit segs.length (pre ++ c.left).length = (pre ++ c.text).length) :
    explode_loop text d limit pre.length segs
      = explode_loop text d limit ((pre ++ c.text).length + 1) (segs ++ [c.seg]) := by
  obtain ⟨x, t, hx, hxb⟩ := hh
  obtain ⟨t', y, hy, hyb⟩ := hla
  have hf : find_not_blank text pre.length = some (pre ++ c.left).length := by
    have := fnb_eq pre c.left (t ++ c.right ++ tail) x hl hxb
    rw [ht, List.length_append, ← this]
    simp [Cell.text, hx]
  have hrf : rfind_not_blank text (pre ++ c.text).length = some ((pre ++ c.left ++ t').length) := by
    have := rfnb_eq (pre ++ c.left ++ t') c.right tail y (pre ++ c.text).length (by simp [Cell.text, hy]) hr hyb
    rw [← this, ht]
    simp [Cell.text, hy]
  have hpos : (pre ++ c.text).length ≠ 0 := by simp [Cell.text, hy]
  rw [explode_loop]
  split
  · rename_i h; rw [h] at hf; cases hf
  · rename_i bpos h
    rw [h] at hf
    cases hf
    simp only [he, if_neg hpos, hrf]
    rw [if_neg (by simp; omega)]
    congr 2
    have e1 : (pre ++ c.left ++ t').length + 1 - (pre ++ c.left).length = c.seg.length := by
      simp [hy]; omega
    rw [e1, ht]
    simp only [Cell.text]
    have e2 : pre ++ (c.left ++ c.seg ++ c.right) ++ tail = (pre ++ c.left) ++ (c.seg ++ (c.right ++ tail)) := by simp
    rw [e2, List.drop_left, List.take_left]

theorem loop_end (text : Bytes) (d : Byte) (limit pos : Nat) (segs : List Bytes) (h : text.length ≤ pos) :
    explode_loop text d limit pos segs = .ok segs := by
  rw [explode_loop]
  split
  · rfl
  · rename_i h'; rw [fnb_past text pos h] at h'; cases h'

theorem implode_cons (s : Bytes) (rest : List Bytes) (d : Byte) :
    implode (s :: rest) d = s ++ rest.flatMap (fun x => d :: x) := by
  unfold implode
  simp only
  induction rest generalizing s with
  | nil => simp
  | cons r rest ih => simp only [List.foldl_cons, ih, List.flatMap_cons]; simp

theorem implode_cons_cons (s r : Bytes) (rest : List Bytes) (d : Byte) :
    implode (s :: r :: rest) d = s ++ d :: implode (r :: rest) d := by
  simp [implode_cons]

/-- The loop when the limit is not reached before the segments run out. -/
theorem loop_all (d : Byte) (limit : Nat) (cells : List Cell) : ∀ (pre text : Bytes) (segs : List Bytes),
    (∀ c ∈ cells, c.Good d) → segs.length + cells.length ≤ limit → text = pre ++ implode (cells.map Cell.text) d →
    explode_loop text d limit pre.length segs = .ok (segs ++ cells.map Cell.seg) := by
  induction cells with
  | nil =>
    intro pre text segs _ _ ht
    simp [implode] at ht
    rw [loop_end _ _ _ _ _ (by rw [ht]; exact Nat.le_refl _)]
    simp
  | cons c rest ih =>
    intro pre text segs hg hlen ht
    have g := hg c (by simp)
    have hclen : d ∉ c.seg ++ c.right := by simp [g.seg_delim, g.right_delim]
    cases rest with
    | nil =>
      simp only [List.map_cons, List.map_nil, implode_cons, List.flatMap_nil, List.append_nil] at ht
      have he : segment_end text d limit segs.length (pre ++ c.left).length = (pre ++ c.text).length := by
        unfold segment_end
        have : find_char text (pre ++ c.left).length d = none := by
          have := fc_none (pre ++ c.left) (c.seg ++ c.right) d hclen
          rw [ht]; simpa [Cell.text] using this
        rw [this, ht]
        split <;> rfl
      rw [loop_step pre c [] text d limit segs g.left_blank g.right_blank g.head g.last (by simp [ht]) he,
        loop_end _ _ _ _ _ (by rw [ht]; omega)]
      simp
    | cons c2 rest =>
      simp only [List.map_cons, implode_cons_cons] at ht
      have he : segment_end text d limit segs.length (pre ++ c.left).length = (pre ++ c.text).length := by
        unfold segment_end
        have hlt : segs.length + 1 < limit := by simp at hlen; omega
        rw [if_pos hlt]
        have : find_char text (pre ++ c.left).length d = some ((pre ++ c.left).length + (c.seg ++ c.right).length) := by
          have := fc_eq (pre ++ c.left) (c.seg ++ c.right) (implode (c2.text :: rest.map Cell.text) d) d hclen
          rw [← this, ht]; simp [Cell.text]
        rw [this]
        simp [Cell.text]; omega
      rw [loop_step pre c (d :: implode (c2.text :: rest.map Cell.text) d) text d limit segs g.left_blank g.right_blank g.head g.last
        (by simp [ht]) he]
      have := ih (pre ++ c.text ++ [d]) text (segs ++ [c.seg]) (fun x hx => hg x (by simp [hx]))
        (by simp at hlen ⊢; omega) (by simp [ht])
      rw [show (pre ++ c.text).length + 1 = (pre ++ c.text ++ [d]).length by simp; omega, this]
      simp

/-- The loop when the limit is reached: the rest of the text goes into the last segment. -/
theorem loop_limit (d : Byte) (limit : Nat) (cells : List Cell) : ∀ (pre text : Bytes) (segs : List Bytes) (k : Nat),
    (∀ c ∈ cells, c.Good d) → segs.length + k + 1 = limit → k < cells.length →
    text = pre ++ implode (cells.map Cell.text) d →
    ∃ l r, (∀ x ∈ l, isBlank x = true) ∧ (∀ x ∈ r, isBlank x = true) ∧
      ∃ T, l ++ T ++ r = implode ((cells.drop k).map Cell.text) d ∧
        (∃ x t, T = x :: t ∧ isBlank x = false) ∧ (∃ t x, T = t ++ [x] ∧ isBlank x = false) ∧
        explode_loop text d limit pre.length segs = .ok (segs ++ (cells.take k).map Cell.seg ++ [T]) := by
  induction cells with
  | nil => intro pre text segs k _ _ hk; simp at hk
  | cons c rest ih =>
    intro pre text segs k hg hlim hk ht
    have g := hg c (by simp)
    cases k with
    | zero =>
      -- all of the remaining text is one big cell
      have hlast : ∀ (cs : List Cell), cs ≠ [] → (∀ x ∈ cs, x.Good d) → ∃ q y r, implode (cs.map Cell.text) d = q ++ [y] ++ r ∧
          isBlank y = false ∧ (∀ x ∈ r, isBlank x = true) := by
        intro cs
        induction cs with
        | nil => intro h; exact absurd rfl h
        | cons a as iha =>
          intro _ hga
          cases as with
          | nil =>
            obtain ⟨t', y, hy, hyb⟩ := (hga a (by simp)).last
            exact ⟨a.left ++ t', y, a.right, by simp [implode_cons, Cell.text, hy], hyb, (hga a (by simp)).right_blank⟩
          | cons b bs =>
            obtain ⟨q, y, r, e1, e2, e3⟩ := iha (by simp) (fun x hx => hga x (by simp at hx ⊢; right; exact hx))
            refine ⟨a.text ++ d :: q, y, r, ?_, e2, e3⟩
            simp only [List.map_cons] at e1 ⊢
            rw [implode_cons_cons, e1]; simp
      obtain ⟨x, t, hx, hxb⟩ := g.head
      -- the text after the first cell's left blanks
      have hsuf : ∃ T r, implode ((c :: rest).map Cell.text) d = c.left ++ T ++ r ∧ (∀ x ∈ r, isBlank x = true) ∧
          (∃ x t, T = x :: t ∧ isBlank x = false) ∧ (∃ t x, T = t ++ [x] ∧ isBlank x = false) := by
        cases rest with
        | nil =>
          exact ⟨c.seg, c.right, by simp [implode_cons, Cell.text], g.right_blank, g.head, g.last⟩
        | cons c2 rest =>
          obtain ⟨q, y, r, e1, e2, e3⟩ := hlast (c2 :: rest) (by simp) (fun x hx => hg x (by simp at hx ⊢; right; exact hx))
          refine ⟨c.seg ++ c.right ++ d :: q ++ [y], r, ?_, e3, ?_, ?_⟩
          · simp only [List.map_cons] at e1 ⊢
            rw [implode_cons_cons, e1]; simp [Cell.text]
          · exact ⟨x, t ++ c.right ++ d :: q ++ [y], by simp [hx], hxb⟩
          · exact ⟨_, y, rfl, e2⟩
      obtain ⟨T, r, hT, hr, hTh, hTl⟩ := hsuf
      refine ⟨c.left, r, g.left_blank, hr, T, by rw [List.drop_zero]; exact hT.symm, hTh, hTl, ?_⟩
      have he : segment_end text d limit segs.length (pre ++ c.left).length = (pre ++ (Cell.mk c.left T r).text).length := by
        unfold segment_end
        rw [if_neg (by omega), ht, hT]; rfl
      have htx : text = pre ++ (Cell.mk c.left T r).text := by rw [ht, hT]; rfl
      rw [loop_step pre ⟨c.left, T, r⟩ [] text d limit segs g.left_blank hr hTh hTl (by rw [htx]; simp) he,
        loop_end _ _ _ _ _ (by rw [htx]; omega)]
      simp
    | succ k =>
      cases rest with
      | nil => simp at hk
      | cons c2 rest =>
        have hclen : d ∉ c.seg ++ c.right := by simp [g.seg_delim, g.right_delim]
        simp only [List.map_cons, implode_cons_cons] at ht
        have he : segment_end text d limit segs.length (pre ++ c.left).length = (pre ++ c.text).length := by
          unfold segment_end
          have hlt : segs.length + 1 < limit := by omega
          rw [if_pos hlt]
          have : find_char text (pre ++ c.left).length d = some ((pre ++ c.left).length + (c.seg ++ c.right).length) := by
            have := fc_eq (pre ++ c.left) (c.seg ++ c.right) (implode (c2.text :: rest.map Cell.text) d) d hclen
            rw [← this, ht]; simp [Cell.text]
          rw [this]
          simp [Cell.text]; omega
        obtain ⟨l, r, hl, hr, T, hT, hTh, hTl, hrun⟩ := ih (pre ++ c.text ++ [d]) text (segs ++ [c.seg]) k
          (fun x hx => hg x (by simp at hx ⊢; right; exact hx))
          (by simp at hlim ⊢; omega) (by simp at hk ⊢; omega) (by simp [ht])
        refine ⟨l, r, hl, hr, T, by simpa using hT, hTh, hTl, ?_⟩
        rw [loop_step pre c (d :: implode (c2.text :: rest.map Cell.text) d) text d limit segs g.left_blank g.right_blank
          g.head g.last (by simp [ht]) he,
          show (pre ++ c.text).length + 1 = (pre ++ c.text ++ [d]).length by simp; omega, hrun]
        simp

theorem explode_loop_none {text : Bytes} {d : Byte} {limit pos : Nat} {segs : List Bytes}
    (h : find_not_blank text pos = none) : explode_loop text d limit pos segs = .ok segs := by
  rw [explode_loop]
  split
  · rfl
  · rename_i h'; rw [h] at h'; cases h'

theorem explode_loop_some {text : Bytes} {d : Byte} {limit pos : Nat} {segs : List Bytes} {bpos : Nat}
    (h : find_not_blank text pos = some bpos) : explode_loop text d limit pos segs =
    match rfind_not_blank text (if segment_end text d limit segs.length bpos = 0 then text.length
        else segment_end text d limit segs.length bpos) with
    | none => .assertFailed
    | some mpos =>
      if mpos + 1 < bpos then .underflow
      else explode_loop text d limit (segment_end text d limit segs.length bpos + 1)
        (segs ++ [(text.drop bpos).take (mpos + 1 - bpos)]) := by
  rw [explode_loop]
  split
  · rename_i h'; rw [h] at h'; cases h'
  · rename_i h'; rw [h] at h'; cases h'; rfl

/-- Never more segments than the limit (a limit of zero counts as one). -/
theorem loop_count (text : Bytes) (d : Byte) (limit : Nat) : ∀ (n pos : Nat) (segs : List Bytes), text.length - pos = n →
    (segs.length ≤ limit - 1 ∨ text.length ≤ pos) →
    ∀ out, explode_loop text d limit pos segs = .ok out → out.length ≤ max (segs.length) (max 1 limit) := by
  intro n
  induction n using Nat.strongRecOn with
  | ind n ih =>
    intro pos segs hn hpre out ho
    cases h : find_not_blank text pos with
    | none => rw [explode_loop_none h] at ho; cases ho; omega
    | some bpos =>
      have hb := find_not_blank_bounds h
      rw [explode_loop_some h] at ho
      split at ho
      · cases ho
      · split at ho
        · cases ho
        · rename_i mpos _ _
          have hge : bpos ≤ segment_end text d limit segs.length bpos := segment_end_ge hb.2
          have hrec := ih (text.length - (segment_end text d limit segs.length bpos + 1)) (by omega)
            (segment_end text d limit segs.length bpos + 1) (segs ++ [(text.drop bpos).take (mpos + 1 - bpos)]) rfl
          by_cases hc : segs.length + 1 < limit
          · have := hrec (Or.inl (by simp; omega)) out ho
            simp at this; omega
          · have hep : segment_end text d limit segs.length bpos = text.length := by
              simp only [segment_end, if_neg hc]
            have := hrec (Or.inr (by omega)) out ho
            simp at this
            omega

end Verif.Utils
