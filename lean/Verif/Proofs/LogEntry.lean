import Verif.Spec.LogEntry
import Verif.Proofs.SqlText
/-!
# Log entries have no raw control characters
-/
namespace Verif.Log

theorem plain_append {a b : Bytes} (ha : plain a = true) (hb : plain b = true) : plain (a ++ b) = true := by
  simp only [plain, List.all_append, Bool.and_eq_true] at *; exact ⟨ha, hb⟩

theorem clean_of_plain {k : Bool} {s : Bytes} (h : plain s = true) : clean k s = true := by
  induction s with
  | nil => rfl
  | cons c t ih =>
    simp only [plain, List.all_cons, Bool.and_eq_true] at h
    have hc : c ≠ esc := by rintro rfl; exact absurd h.1 (by decide)
    simp only [clean, if_neg hc, h.1, Bool.true_or, Bool.true_and]
    exact ih h.2

theorem clean_append {k : Bool} {a b : Bytes} (ha : clean k a = true) (hb : clean k b = true) : clean k (a ++ b) = true := by
  induction a with
  | nil => exact hb
  | cons c t ih =>
    simp only [clean, Bool.and_eq_true] at ha
    simp only [List.cons_append, clean, Bool.and_eq_true]
    refine ⟨?_, ih ha.2⟩
    have h1 := ha.1
    split
    · rename_i he
      rw [if_pos he] at h1
      cases t with
      | nil => exact nomatch h1
      | cons d t => exact h1
    · rename_i he
      rw [if_neg he] at h1
      exact h1

theorem clean_flatMap {k : Bool} {f : Byte → Bytes} (hf : ∀ c, clean k (f c) = true) (s : Bytes) : clean k (s.flatMap f) = true := by
  induction s with
  | nil => rfl
  | cons c t ih => rw [List.flatMap_cons]; exact clean_append (hf c) ih

/-- Dropping a last character that cannot follow `ESC`. -/
theorem clean_init {k : Bool} {a : Bytes} {c : Byte} (hE : c ≠ chr 'E') (hB : c ≠ chr '[') (h : clean k (a ++ [c]) = true) : clean k a = true := by
  induction a with
  | nil => rfl
  | cons d t ih =>
    simp only [List.cons_append, clean, Bool.and_eq_true] at h ⊢
    refine ⟨?_, ih h.2⟩
    have h1 := h.1
    split
    · rename_i he
      rw [if_pos he] at h1
      cases t with
      | nil => simp [hE, hB] at h1
      | cons e t => exact h1
    · rename_i he
      rw [if_neg he] at h1
      exact h1

theorem clean_rtrim {k : Bool} {s : Bytes} (h : clean k s = true) : clean k (rtrim s) = true := by
  unfold rtrim
  have key : ∀ r : Bytes, clean k r.reverse = true → clean k (r.dropWhile isSpace).reverse = true := by
    intro r
    induction r with
    | nil => intro h; exact h
    | cons c t ih =>
      intro h
      rw [List.dropWhile_cons]
      split
      · rename_i hs
        rw [List.reverse_cons] at h
        refine ih (clean_init ?_ ?_ h)
        · rintro rfl; exact absurd hs (by decide)
        · rintro rfl; exact absurd hs (by decide)
      · exact h
  exact key s.reverse (by rw [List.reverse_reverse]; exact h)

theorem digits_plain {f : Nat → Byte} {base : Nat} (hb : 0 < base) (hf : ∀ d < base, isCtl (f d) = false) : ∀ (fuel n : Nat), plain (Http.digits base f fuel n) = true := by
  intro fuel
  induction fuel with
  | zero => intro n; simp [Http.digits, plain, hf _ (Nat.mod_lt _ hb)]
  | succ k ih =>
    intro n
    rw [Http.digits]
    split
    · rename_i h
      simp [plain, hf _ (by first | exact h | exact Nat.mod_lt _ hb)]
    · exact plain_append (ih _) (by simp [plain, hf _ (Nat.mod_lt _ hb)])

theorem decimal_plain (n : Nat) : plain (Http.decimal n) = true := by
  refine digits_plain (by decide) ?_ n n
  decide

theorem plain_take {s : Bytes} {n : Nat} (h : plain s = true) : plain (s.take n) = true := by
  simp only [plain, List.all_eq_true] at *
  exact fun c hc => h c (List.mem_of_mem_take hc)

theorem padded_plain (w n : Nat) : plain (padded w n) = true := by
  refine plain_take (plain_append ?_ (decimal_plain n))
  simp only [plain, List.all_eq_true, List.mem_replicate]
  rintro c ⟨-, rfl⟩
  decide

theorem clean_color {l : Level} {code : Bytes} (h : plain code = true) : clean (l.color != []) (color l code) = true := by
  unfold color
  split
  · rfl
  · rename_i hc
    refine clean_append (clean_append ?_ (clean_of_plain h)) (clean_of_plain (by decide))
    simp [clean, esc, hc, chr, isCtl, tab]

theorem escapes_clean (k : Bool) : ∀ c, clean k (escapes c) = true := by
  cases k <;> exact forall_byte (by decide +kernel)

theorem char_clean (l : Level) (c : Byte) : clean (l.color != []) (char l c) = true := by
  have h := escapes_clean (l.color != []) c
  unfold char
  split
  · rfl
  · rename_i d seq he
    rw [he] at h
    split
    · exact h
    · split
      · rename_i h2; subst h2; exact h
      · exact clean_append (clean_append (clean_color (by decide)) h) (clean_color (by decide))

theorem head_clean {l : Level} {m : Msg} (t : Time) (h : Plain l m) : clean (l.color != []) (head l t) = true := by
  unfold head
  have p := fun w n => clean_of_plain (k := l.color != []) (padded_plain w n)
  have b : ∀ s : Bytes, plain s = true → clean (l.color != []) s = true := fun s => clean_of_plain
  exact clean_append (clean_append (clean_append (clean_append (clean_append (clean_append (clean_append (clean_append (clean_append (clean_append (clean_append (clean_append
    (clean_append (clean_append (clean_append (clean_append (clean_append (clean_append (clean_append (clean_append (clean_color h.color) (p _ _)) (b _ (by decide))) (p _ _))
    (b _ (by decide))) (p _ _)) (b _ (by decide))) (p _ _)) (b _ (by decide))) (p _ _)) (b _ (by decide))) (p _ _)) (b _ (by decide))) (p _ _)) (b _ (by decide)))
    (clean_color (by decide))) (b _ h.tag)) (clean_color (by decide))) (b _ (by decide))) (clean_color (by decide))) (clean_color h.color)

/-- The last part without the line feed. -/
def footInit (l : Level) (m : Msg) : Bytes :=
  color l (b! "0") ++ nelHt ++ color l (b! "90") ++ b! "@@ thread " ++ Http.decimal m.lwpid ++ b! " [" ++ m.name ++ b! "] " ++ color l (b! "34") ++
    b! "inside function `" ++ m.func ++ b! "` at '" ++ m.file ++ b! ":" ++ Http.decimal m.line ++ (b! "'" ++ nelHt).dropLast ++ color l (b! "0")

theorem foot_eq (l : Level) (m : Msg) : foot l m = footInit l m ++ [lf] := rfl

theorem foot_clean {l : Level} {m : Msg} (h : Plain l m) : clean (l.color != []) (footInit l m) = true := by
  unfold footInit
  have b : ∀ s : Bytes, plain s = true → clean (l.color != []) s = true := fun s => clean_of_plain
  have hn : clean (l.color != []) nelHt = true := by simp [clean, nelHt, esc, chr, isCtl, tab]
  have hd : clean (l.color != []) (b! "'" ++ nelHt).dropLast = true := by simp [clean, nelHt, esc, chr, isCtl, tab]
  exact clean_append (clean_append (clean_append (clean_append (clean_append (clean_append (clean_append (clean_append (clean_append (clean_append (clean_append (clean_append
    (clean_append (clean_append (clean_append (clean_append (clean_color (by decide)) hn) (clean_color (by decide))) (b _ (by decide))) (b _ (decimal_plain _)))
    (b _ (by decide))) (b _ h.name)) (b _ (by decide))) (clean_color (by decide))) (b _ (by decide))) (b _ h.func)) (b _ (by decide))) (b _ h.file)) (b _ (by decide)))
    (b _ (decimal_plain _))) hd) (clean_color (by decide))

theorem clean_no_lf {k : Bool} {s : Bytes} (h : clean k s = true) : lf ∉ s := by
  induction s with
  | nil => exact fun e => nomatch e
  | cons c t ih =>
    simp only [clean, Bool.and_eq_true] at h
    intro hm
    rcases List.mem_cons.1 hm with rfl | hm
    · have := h.1
      rw [if_neg (by decide)] at this
      exact absurd this (by decide)
    · exact ih h.2 hm

theorem rtrim_append {a b : Bytes} {c : Byte} (hc : isSpace c = false) : rtrim (a ++ (b ++ [c])) = a ++ (b ++ [c]) := by
  unfold rtrim
  rw [← List.append_assoc, List.reverse_append, List.reverse_singleton, List.singleton_append, List.dropWhile_cons, hc, if_neg (by decide)]
  simp

/-! ## Digits -/

theorem fixed_length (w n : Nat) : (fixed w n).length = w := by simp [fixed]

theorem fixed_succ (w n : Nat) : fixed (w + 1) n = fixed w (n / 10) ++ [UInt8.ofNat (0x30 + n % 10)] := by
  have hd : ∀ d, d < 10 → (b! "0123456789").getD d 0 = UInt8.ofNat (0x30 + d) := by decide
  unfold fixed
  rw [List.range_succ, List.map_append]
  congr 1
  · refine List.map_congr_left fun i hi => ?_
    have hi := List.mem_range.1 hi
    rw [Nat.div_div_eq_div_mul, ← Nat.pow_add_one', show w + 1 - 1 - i = w - 1 - i + 1 by omega]
  · simp only [List.map_cons, List.map_nil]
    rw [show w + 1 - 1 - w = 0 by omega, Nat.pow_zero, Nat.div_one, hd _ (Nat.mod_lt _ (by decide))]

theorem fixed_zero (w : Nat) : fixed w 0 = List.replicate w (chr '0') := by
  induction w with
  | zero => rfl
  | succ w ih => rw [fixed_succ, Nat.zero_div, ih, List.replicate_succ']; rfl

theorem pad_digits : ∀ (w fuel n : Nat), n ≤ fuel → n < 10 ^ (w + 1) →
    List.replicate (w + 1 - (Http.digits 10 (fun d => UInt8.ofNat (0x30 + d)) fuel n).length) (chr '0') ++ Http.digits 10 (fun d => UInt8.ofNat (0x30 + d)) fuel n = fixed (w + 1) n
  | w, 0, n, h, _ => by
    obtain rfl : n = 0 := by omega
    rw [fixed_succ, fixed_zero]; rfl
  | w, fuel + 1, n, h, hn => by
    rw [Http.digits, fixed_succ]
    split
    · rename_i h10
      rw [Nat.div_eq_of_lt h10, fixed_zero, Nat.mod_eq_of_lt h10]; rfl
    · rename_i h10
      cases w with
      | zero => omega
      | succ w =>
        rw [← pad_digits w fuel (n / 10) (by omega) (by rw [Nat.pow_succ] at hn; omega), List.length_append, List.append_assoc]
        congr 2
        simp only [List.length_cons, List.length_nil]; omega

theorem padded_fixed {w n : Nat} (hw : 0 < w) (h : n < 10 ^ w) : padded w n = fixed w n := by
  obtain ⟨w, rfl⟩ : ∃ k, w = k + 1 := ⟨w - 1, by omega⟩
  unfold padded Http.decimal
  rw [pad_digits w n n (Nat.le_refl _) h, List.take_of_length_le (Nat.le_of_eq (fixed_length _ _))]

theorem decimal_toDigits (n : Nat) : Http.decimal n = (Nat.toDigits 10 n).map chr := (Sql.digits_std n n (Nat.le_refl n)).1

theorem escapes_shown : ∀ c, escapes c = shown c := forall_byte (by decide +kernel)

/-! ## Colors -/

/-- Without colors, `x` is shown as `y`, whatever follows. -/
def Strips (x y : Bytes) : Prop := ∀ r, uncolor false (x ++ r) = y ++ uncolor false r

theorem Strips.append {a b c d : Bytes} (h1 : Strips a b) (h2 : Strips c d) : Strips (a ++ c) (b ++ d) := fun r => by
  rw [List.append_assoc, h1, h2, List.append_assoc]

theorem Strips.clean {s : Bytes} (h : clean false s = true) : Strips s s := by
  intro r
  induction s with
  | nil => rfl
  | cons c t ih =>
    simp only [Log.clean, Bool.and_eq_true] at h
    have hn : ¬ (c = 0x1B ∧ (t ++ r).head? = some (chr '[')) := by
      rintro ⟨he, hb⟩
      have h1 := h.1
      rw [if_pos (show c = esc from he)] at h1
      cases t with
      | nil => exact nomatch h1
      | cons d t =>
        simp only [List.cons_append, List.head?_cons, Option.some.injEq] at hb
        subst hb
        simp [chr] at h1
    rw [List.cons_append, uncolor, if_neg hn, ih h.2, List.cons_append]

theorem Strips.plain {s : Bytes} (h : plain s = true) : Strips s s := .clean (clean_of_plain h)

theorem uncolor_code : ∀ (s r : Bytes), chr 'm' ∉ s → uncolor true (s ++ chr 'm' :: r) = uncolor false r
  | [], r, _ => rfl
  | c :: t, r, h => by
    have hc : (c != chr 'm') = true := by
      simp only [bne_iff_ne, ne_eq]; rintro rfl; exact h (.head _)
    rw [List.cons_append, uncolor, hc]
    exact uncolor_code t r fun hm => h (.tail _ hm)

theorem Strips.color (l : Level) {code : Bytes} (h : chr 'm' ∉ code) : Strips (color l code) [] := by
  intro r
  unfold Log.color
  split
  · rfl
  · rw [List.append_assoc, List.append_assoc]
    show uncolor false (esc :: chr '[' :: (code ++ (chr 'm' :: r))) = _
    rw [uncolor, if_pos ⟨rfl, rfl⟩, uncolor]
    exact uncolor_code _ _ h

theorem Strips.flatMap {f g : Byte → Bytes} (h : ∀ c, Strips (f c) (g c)) : ∀ s : Bytes, Strips (s.flatMap f) (s.flatMap g)
  | [] => fun _ => rfl
  | c :: t => by
    rw [List.flatMap_cons, List.flatMap_cons]
    exact (h c).append (Strips.flatMap h t)

theorem Strips.char (l : Level) (c : Byte) : Strips (char l c) (escapes c) := by
  have h := escapes_clean false c
  unfold Log.char
  split
  · rename_i e; rw [e]; exact fun _ => rfl
  · rename_i d seq e
    rw [e] at h ⊢
    split
    · exact .clean h
    · split
      · rename_i h2; subst h2; exact .clean h
      · have := ((Strips.color l (code := b! "7") (by decide)).append (.clean h)).append (Strips.color l (code := b! "27") (by decide))
        simpa using this

theorem Strips.head {l : Level} {m : Msg} (t : Time) (h : Plain l m) (hm : chr 'm' ∉ l.color) : Strips (head l t) (head { l with color := [] } t) := by
  have p := fun w n => Strips.plain (padded_plain w n)
  have b : ∀ s : Bytes, Log.plain s = true → Strips s s := fun s => Strips.plain
  have k := fun (code : Bytes) (hc : chr 'm' ∉ code) => Strips.color l hc
  exact Strips.append (Strips.append (Strips.append (Strips.append (Strips.append (Strips.append (Strips.append (Strips.append (Strips.append (Strips.append (Strips.append (Strips.append
    (Strips.append (Strips.append (Strips.append (Strips.append (Strips.append (Strips.append (Strips.append (Strips.append (k _ hm) (p _ _)) (b _ (by decide))) (p _ _))
    (b _ (by decide))) (p _ _)) (b _ (by decide))) (p _ _)) (b _ (by decide))) (p _ _)) (b _ (by decide))) (p _ _)) (b _ (by decide))) (p _ _)) (b _ (by decide)))
    (k _ (by decide))) (b _ h.tag)) (k _ (by decide))) (b _ (by decide))) (k _ (by decide))) (k _ hm)

theorem Strips.foot {l : Level} {m : Msg} (h : Plain l m) : Strips (foot l m) (foot { l with color := [] } m ++ []) := by
  have b : ∀ s : Bytes, Log.plain s = true → Strips s s := fun s => Strips.plain
  have k := fun (code : Bytes) (hc : chr 'm' ∉ code) => Strips.color l hc
  have hn : Strips nelHt nelHt := .clean (by decide)
  have hd : Strips (b! "'" ++ nelHt).dropLast (b! "'" ++ nelHt).dropLast := .clean (by decide)
  have hl : Strips [lf] [lf] := fun r => rfl
  rw [List.append_nil]
  exact Strips.append (Strips.append (Strips.append (Strips.append (Strips.append (Strips.append (Strips.append (Strips.append (Strips.append (Strips.append (Strips.append (Strips.append
    (Strips.append (Strips.append (Strips.append (Strips.append (Strips.append (k _ (by decide)) hn) (k _ (by decide))) (b _ (by decide))) (b _ (decimal_plain _)))
    (b _ (by decide))) (b _ h.name)) (b _ (by decide))) (k _ (by decide))) (b _ (by decide))) (b _ h.func)) (b _ (by decide))) (b _ h.file)) (b _ (by decide)))
    (b _ (decimal_plain _))) hd) (k _ (by decide))) hl

/-- What is written for a character that is not a space character does not end in one. -/
theorem char_last (l : Level) (x : Byte) (hx : x ∉ b! " \t\n") : ∃ p d, char l x = p ++ [d] ∧ isSpace d = false := by
  have hk : ∀ x : Byte, x ∉ b! " \t\n" → (escapes x ≠ [] ∧ isSpace ((escapes x).getLast?.getD 0) = false) := forall_byte (by decide +kernel)
  have last : ∀ s : Bytes, s ≠ [] → isSpace (s.getLast?.getD 0) = false → ∃ p d, s = p ++ [d] ∧ isSpace d = false := fun s h1 h2 => by
    refine ⟨s.dropLast, s.getLast h1, (List.dropLast_concat_getLast h1).symm, ?_⟩
    rw [List.getLast?_eq_some_getLast h1] at h2
    exact h2
  obtain ⟨h1, h2⟩ := hk x hx
  unfold char
  split
  · rename_i e; exact absurd e h1
  · rename_i d seq e
    rw [e] at h1 h2
    split
    · exact last _ h1 h2
    · split
      · rename_i h3; subst h3; exact last _ h1 h2
      · unfold color
        split
        · simpa using last _ h1 h2
        · exact ⟨_, chr 'm', by rw [← List.append_assoc, ← List.append_assoc], by decide⟩

theorem entry_eq (l : Level) (t : Time) (m : Msg) (a : Bytes) (c : Byte) (hm : m.text = a ++ [c]) (hc : c ∉ b! " \t\n") :
    entry l t m = head l t ++ m.text.flatMap (char l) ++ foot l m := by
  obtain ⟨p, d, hp, hd⟩ := char_last l c hc
  have : [c].flatMap (char l) = p ++ [d] := by rw [← hp]; simp
  rw [entry, hm, List.flatMap_append, this, ← List.append_assoc (a.flatMap (char l)), rtrim_append hd]

theorem char_plain {l : Level} (hl : l.color = []) (x : Byte) : char l x = escapes x := by
  unfold char
  split
  · rename_i e; exact e.symm
  · rename_i d seq e
    rw [e]
    split
    · rfl
    · split
      · rename_i h2; subst h2; rfl
      · simp [color, hl]

end Verif.Log
