import Verif.Spec.MongoText
import Verif.Proofs.Mongo
/-! # The texts of Mongo values: proofs -/
namespace Verif.Mongo
open Verif.Json

/-! ### Strings -/

theorem safe_form : ∀ c : Byte, safe c = true →
    c.toNat < 128 ∧ ((quoteChar c.toNat = [c] ∧ c ≠ chr '"' ∧ c ≠ chr '\\' ∧ ¬ c.toNat < 32)
      ∨ (quoteChar c.toNat = [chr '\\', (quoteChar c.toNat).getD 1 0] ∧ (quoteChar c.toNat).getD 1 0 ≠ chr 'u' ∧ letter ((quoteChar c.toNat).getD 1 0) = some c)) :=
  forall_byte (by decide +kernel)

theorem chars_safe (n : Nat) (c : Byte) (t : Bytes) (h : safe c = true) : chars (n + 1) (quoteChar c.toNat ++ t) = before [c] (chars n t) := by
  rcases (safe_form c h).2 with ⟨h1, h2, h3, h4⟩ | ⟨h1, h2, h3⟩
  · rw [h1]
    show chars (n + 1) (c :: t) = _
    conv => lhs; unfold chars
    rw [if_neg h2, if_neg h3, if_neg h4]
  · rw [h1]
    generalize (quoteChar c.toNat).getD 1 0 = e at *
    show chars (n + 1) (chr '\\' :: e :: t) = _
    conv => lhs; unfold chars
    rw [if_neg (by decide), if_pos rfl]
    simp only []
    rw [if_neg h2, h3]

theorem loop_cons (L : TextLib) (hL : DecodeOk L) (m : Nat) (c : Byte) (s : Bytes) (h : safe c = true) :
    quoteLoop L (m + 1) (c :: s) = quoteChar c.toNat ++ quoteLoop L m s := by
  conv => lhs; unfold quoteLoop
  simp only []
  rw [hL.ascii c s (safe_form c h).1]
  rfl

/-- A safe text is read back. -/
theorem chars_quote (L : TextLib) (hL : DecodeOk L) (s rest : Bytes) (h : safeText s = true) (n : Nat) (hn : s.length < n) :
    chars n (quoteLoop L s.length s ++ chr '"' :: rest) = some (s, rest) := by
  induction s generalizing n with
  | nil =>
    obtain ⟨n, rfl⟩ : ∃ m, n = m + 1 := ⟨n - 1, by simp at hn; omega⟩
    show chars (n + 1) (chr '"' :: rest) = _
    unfold chars
    rw [if_pos rfl]
  | cons c s ih =>
    simp only [safeText, List.all_cons, Bool.and_eq_true] at h
    obtain ⟨n, rfl⟩ : ∃ m, n = m + 1 := ⟨n - 1, by simp at hn; omega⟩
    rw [List.length_cons, loop_cons L hL _ _ _ h.1, List.append_assoc, chars_safe n c _ h.1, ih h.2 n (by simp at hn; omega)]
    rfl

theorem safe_all : ∀ c : Byte, safe c = false → c.toNat < 128 → ∃ a b, quoteChar c.toNat = [chr '\\', chr 'u', chr '0', chr 'x', a, b] :=
  forall_byte (by
    intro n h1 h2
    have : ∀ n : Fin 256, safe (UInt8.ofNat n.val) = false → (UInt8.ofNat n.val).toNat < 128 →
        quoteChar (UInt8.ofNat n.val).toNat = [chr '\\', chr 'u', chr '0', chr 'x', (quoteChar (UInt8.ofNat n.val).toNat).getD 4 0, (quoteChar (UInt8.ofNat n.val).toNat).getD 5 0] := by decide +kernel
    exact ⟨_, _, this n h1 h2⟩)

theorem quote_other (cp : Nat) (h : 128 ≤ cp) : ∃ a b t, quoteChar cp = chr '\\' :: chr 'u' :: chr '0' :: chr 'x' :: a :: b :: t := by
  unfold quoteChar
  rw [if_neg (by omega), if_neg (by omega), if_neg (by omega), if_neg (by omega), if_neg (by omega), if_neg (by omega), if_neg (by omega)]
  unfold utf16 put_XU
  split
  · exact ⟨_, _, _, rfl⟩
  · exact ⟨_, _, _, rfl⟩

theorem chars_bad (n : Nat) (a b : Byte) (t : Bytes) : chars n (chr '\\' :: chr 'u' :: chr '0' :: chr 'x' :: a :: b :: t) = none := by
  cases n with
  | zero => rfl
  | succ n =>
    unfold chars
    rw [if_neg (by decide), if_pos rfl]
    simp only []
    rw [if_pos trivial]
    have : hex4 (chr '0') (chr 'x') a b = none := rfl
    rw [this]

/-- Any other text gives something that is no string. -/
theorem chars_unsafe (L : TextLib) (hL : DecodeOk L) (s rest : Bytes) (h : safeText s = false) (n : Nat) :
    chars n (quoteLoop L s.length s ++ rest) = none := by
  induction s generalizing n with
  | nil => simp [safeText] at h
  | cons c s ih =>
    cases n with
    | zero => rfl
    | succ n =>
    by_cases hc : safe c = true
    · simp only [safeText, List.all_cons, hc, Bool.true_and] at h
      rw [List.length_cons, loop_cons L hL _ _ _ hc, List.append_assoc, chars_safe n c _ hc, ih h]
      rfl
    · simp only [Bool.not_eq_true] at hc
      rw [List.length_cons]
      unfold quoteLoop
      simp only []
      by_cases h7 : c.toNat < 128
      · rw [hL.ascii c s h7]
        simp only []
        obtain ⟨a, b, hq⟩ := safe_all c hc h7
        rw [hq]
        exact chars_bad _ _ _ _
      · cases hd : L.decode (c :: s) with
        | none =>
          simp only []
          obtain ⟨a, b, t, hq⟩ := quote_other 0xFFFD (by omega)
          rw [hq]
          exact chars_bad _ _ _ _
        | some r =>
          obtain ⟨cp, k⟩ := r
          simp only []
          obtain ⟨a, b, t, hq⟩ := quote_other cp (hL.other c s cp k (by omega) hd).1
          rw [hq]
          exact chars_bad _ _ _ _

/-! ### Numbers -/

theorem number_append (a b : Bytes) : number (a ++ b) = b.foldl (fun a d => a * 10 + (d.toNat - 48)) (number a) := by simp [number]

theorem dig_val (d : Nat) (h : d < 10) : (UInt8.ofNat (0x30 + d)).toNat = 48 + d := by
  rw [UInt8.toNat_ofNat']
  omega

theorem digits_spec (fuel n : Nat) (h : n ≤ fuel) : (∀ c ∈ Http.digits 10 (fun d => UInt8.ofNat (0x30 + d)) fuel n, isDigit c = true)
    ∧ number (Http.digits 10 (fun d => UInt8.ofNat (0x30 + d)) fuel n) = n
    ∧ (∃ c t, Http.digits 10 (fun d => UInt8.ofNat (0x30 + d)) fuel n = c :: t ∧ (c = chr '0' → t = [])) := by
  have dd : ∀ d, d < 10 → isDigit (UInt8.ofNat (0x30 + d)) = true := by
    intro d hd
    unfold isDigit
    rw [dig_val d hd]
    simp; omega
  have nz : ∀ d, d < 10 → 0 < d → UInt8.ofNat (0x30 + d) ≠ chr '0' := by
    intro d hd h0 hc
    have := congrArg UInt8.toNat hc
    rw [dig_val d hd] at this
    have e : (chr '0').toNat = 48 := rfl
    omega
  induction fuel generalizing n with
  | zero =>
    have : n = 0 := by omega
    subst this
    exact ⟨by decide, by decide, _, _, rfl, fun _ => rfl⟩
  | succ fuel ih =>
    unfold Http.digits
    split
    · rename_i hn
      refine ⟨by intro c hc; simp at hc; subst hc; simpa using dd n hn, ?_, _, _, rfl, fun _ => rfl⟩
      show 0 * 10 + ((UInt8.ofNat (0x30 + n)).toNat - 48) = n
      rw [dig_val n hn]; omega
    · rename_i hn
      obtain ⟨h1, h2, c, t, h3, h4⟩ := ih (n / 10) (by omega)
      refine ⟨?_, ?_, ?_⟩
      · intro c hc
        rcases List.mem_append.mp hc with hc | hc
        · exact h1 c hc
        · simp at hc; subst hc; simpa using dd (n % 10) (by omega)
      · rw [number_append, h2]
        show n / 10 * 10 + ((UInt8.ofNat (0x30 + n % 10)).toNat - 48) = n
        rw [dig_val _ (by omega)]; omega
      · rw [h3]
        refine ⟨c, t ++ [UInt8.ofNat (0x30 + n % 10)], rfl, fun hc => ?_⟩
        exfalso
        have ht := h4 hc
        subst ht
        rw [h3] at h2
        subst hc
        have : number [chr '0'] = 0 := rfl
        omega

theorem takeWhile_digits (ds rest : Bytes) (h : ∀ c ∈ ds, isDigit c = true) (hr : ∀ c, rest.head? = some c → isDigit c = false) :
    (ds ++ rest).takeWhile isDigit = ds ∧ (ds ++ rest).dropWhile isDigit = rest := by
  induction ds with
  | nil =>
    cases rest with
    | nil => simp
    | cons c t => simp [hr c rfl]
  | cons c ds ih =>
    have := ih (fun x hx => h x (List.mem_cons_of_mem _ hx))
    simp [h c (List.mem_cons_self), this.1, this.2]

/-- What may follow a value. -/
def Stop (rest : Bytes) : Prop := ∀ c, rest.head? = some c → c = chr ',' ∨ c = chr ']' ∨ c = chr '}'

theorem stop_facts (rest : Bytes) (h : Stop rest) : (∀ c, rest.head? = some c → isDigit c = false) ∧ ¬ (rest.head? = some (chr '.') ∨ rest.head? = some (chr 'e') ∨ rest.head? = some (chr 'E')) := by
  constructor
  · intro c hc
    rcases h c hc with h | h | h <;> subst h <;> decide
  · rintro (hc | hc | hc) <;> rcases h _ hc with h | h | h <;> revert h <;> decide

theorem natural_decimal (n : Nat) (rest : Bytes) (h : Stop rest) : natural (Http.decimal n ++ rest) = some (n, rest) := by
  obtain ⟨h1, h2, c, t, h3, h4⟩ := digits_spec n n (Nat.le_refl n)
  change ∀ c ∈ Http.decimal n, _ at h1
  change number (Http.decimal n) = n at h2
  change Http.decimal n = c :: t at h3
  obtain ⟨s1, s2⟩ := stop_facts rest h
  obtain ⟨e1, e2⟩ := takeWhile_digits _ rest h1 s1
  unfold natural
  simp only [e1, e2]
  rw [if_neg (by rw [h3]; simp), if_neg ?_, if_neg s2, h2]
  rintro ⟨a, b⟩
  rw [h3] at a b
  simp at a b
  rw [h4 a] at b
  simp at b

theorem value_int (n : Nat) (i : Int) (rest : Bytes) (h : Stop rest) : value (n + 1) (intText i ++ rest) = some (.int i, rest) := by
  unfold intText
  split
  · rename_i hi
    show value (n + 1) (chr '-' :: (Http.decimal i.natAbs ++ rest)) = _
    unfold value
    simp only []
    rw [if_neg (by decide), if_neg (by decide), if_neg (by decide), if_pos trivial, natural_decimal _ _ h]
    simp only [Option.map_some]
    have : -(i.natAbs : Int) = i := by omega
    rw [this]
  · rename_i hi
    have hn := natural_decimal i.natAbs rest h
    obtain ⟨h1, _, c, t, h3, _⟩ := digits_spec i.natAbs i.natAbs (Nat.le_refl _)
    change ∀ c ∈ Http.decimal _, _ at h1
    change Http.decimal _ = c :: t at h3
    have hc := h1 c (by rw [h3]; exact List.mem_cons_self)
    rw [h3] at hn ⊢
    show value (n + 1) (c :: (t ++ rest)) = _
    unfold value
    simp only []
    have ne : ∀ x : Byte, isDigit x = false → ¬ c = x := by rintro x hx rfl; rw [hx] at hc; cases hc
    rw [if_neg (ne _ (by decide)), if_neg (ne _ (by decide)), if_neg (ne _ (by decide)), if_neg (ne _ (by decide)), if_pos hc]
    rw [List.cons_append] at hn
    rw [hn]
    simp only [Option.map_some]
    have : (i.natAbs : Int) = i := by omega
    rw [this]

/-! ### Values -/

mutual
/-- The fuel that a reader needs. -/
def Value.need : Value → Nat
  | .array vs => 1 + needArr vs
  | .document fs => 1 + needDoc fs
  | _ => 1
def needArr : List Value → Nat
  | [] => 0
  | v :: vs => v.need + 1 + needArr vs
def needDoc : List (Bytes × Value) → Nat
  | [] => 0
  | (_, v) :: fs => v.need + 1 + needDoc fs
end

abbrev fmt (L : TextLib) : Fmt := { key := quote_json_string L, leaf := leafText L }

theorem quoted_length (L : TextLib) (s rest : Bytes) (h : safeText s = true) (hL : DecodeOk L) : s.length < (quoteLoop L s.length s ++ chr '"' :: rest).length + 1 := by
  have : s.length ≤ (quoteLoop L s.length s).length := by
    induction s with
    | nil => exact Nat.zero_le _
    | cons c s ih =>
      simp only [safeText, List.all_cons, Bool.and_eq_true] at h
      rw [List.length_cons, loop_cons L hL _ _ _ h.1, List.length_append]
      have := ih h.2
      have : 1 ≤ (quoteChar c.toNat).length := by
        rcases (safe_form c h.1).2 with h1 | h1 <;> rw [h1.1] <;> simp
      omega
  rw [List.length_append, List.length_cons]
  omega

theorem read_string (L : TextLib) (hL : DecodeOk L) (s rest : Bytes) (h : safeText s = true) :
    chars ((quoteLoop L s.length s ++ chr '"' :: rest).length + 1) (quoteLoop L s.length s ++ chr '"' :: rest) = some (s, rest) :=
  chars_quote L hL s rest h _ (quoted_length L s rest h hL)

theorem json_first (L : TextLib) (v : Value) (j : J) (h : v.json = some j) : ∃ c t, v.text (fmt L) = c :: t ∧ c ≠ chr ']' ∧ c ≠ chr '}' := by
  cases v with
  | null => exact ⟨_, _, rfl, by decide, by decide⟩
  | boolean b => cases b <;> exact ⟨_, _, rfl, by decide, by decide⟩
  | integer n =>
    show ∃ c t, intText n = c :: t ∧ _
    unfold intText
    split
    · exact ⟨_, _, rfl, by decide, by decide⟩
    · obtain ⟨h1, _, c, t, h3, _⟩ := digits_spec n.natAbs n.natAbs (Nat.le_refl _)
      change ∀ c ∈ Http.decimal _, _ at h1
      change Http.decimal _ = c :: t at h3
      have hc := h1 c (by rw [h3]; exact List.mem_cons_self)
      refine ⟨c, t, h3, ?_, ?_⟩ <;> rintro rfl <;> revert hc <;> decide
  | utf8 s => exact ⟨_, _, rfl, by decide, by decide⟩
  | array vs => exact ⟨_, _, rfl, by decide, by decide⟩
  | document fs => exact ⟨_, _, rfl, by decide, by decide⟩
  | double _ => simp [Value.json] at h
  | binary _ => simp [Value.json] at h
  | oid _ => simp [Value.json] at h
  | datetime _ => simp [Value.json] at h

theorem stop_cons (c : Byte) (t : Bytes) (h : c = chr ',' ∨ c = chr ']' ∨ c = chr '}') : Stop (c :: t) := by
  intro x hx
  simp at hx
  subst hx
  exact h

theorem jsonArr_cons (v : Value) (vs : List Value) (js : List J) (h : jsonArr (v :: vs) = some js) : ∃ j js', js = j :: js' ∧ v.json = some j ∧ jsonArr vs = some js' := by
  rw [jsonArr] at h
  cases h1 : v.json with
  | none => rw [h1] at h; simp at h
  | some j =>
    cases h2 : jsonArr vs with
    | none => rw [h1, h2] at h; simp at h
    | some js' => rw [h1, h2] at h; simp at h; exact ⟨j, js', h.symm, rfl, rfl⟩

theorem jsonDoc_cons (k : Bytes) (v : Value) (fs : List (Bytes × Value)) (js : List (Bytes × J)) (h : jsonDoc ((k, v) :: fs) = some js) :
    ∃ j js', js = (k, j) :: js' ∧ v.json = some j ∧ jsonDoc fs = some js' ∧ safeText k = true := by
  rw [jsonDoc] at h
  cases h1 : v.json with
  | none => rw [h1] at h; simp at h
  | some j =>
    cases h2 : jsonDoc fs with
    | none => rw [h1, h2] at h; simp at h
    | some js' => rw [h1, h2] at h; simp at h; exact ⟨j, js', h.2.symm, rfl, rfl, h.1⟩

mutual
theorem value_text (L : TextLib) (hL : DecodeOk L) : (v : Value) → (j : J) → v.json = some j → (n : Nat) → v.need ≤ n → (rest : Bytes) → Stop rest →
    value n (v.text (fmt L) ++ rest) = some (j, rest)
  | .null, j, h, n, hn, rest, hr => by
    simp only [Value.json, Option.some.injEq] at h
    obtain ⟨n, rfl⟩ : ∃ m, n = m + 1 := ⟨n - 1, by simp [Value.need] at hn; omega⟩
    subst h
    show value (n + 1) (110 :: 117 :: 108 :: 108 :: rest) = _
    unfold value
    simp only []
    rw [if_neg (by decide), if_neg (by decide), if_neg (by decide), if_neg (by decide), if_neg (by decide), if_pos (by simp)]
    rfl
  | .boolean b, j, h, n, hn, rest, hr => by
    simp only [Value.json, Option.some.injEq] at h
    obtain ⟨n, rfl⟩ : ∃ m, n = m + 1 := ⟨n - 1, by simp [Value.need] at hn; omega⟩
    subst h
    cases b
    · show value (n + 1) (102 :: 97 :: 108 :: 115 :: 101 :: rest) = _
      unfold value
      simp only []
      rw [if_neg (by decide), if_neg (by decide), if_neg (by decide), if_neg (by decide), if_neg (by decide), if_neg (by simp), if_neg (by simp), if_pos (by simp)]
      rfl
    · show value (n + 1) (116 :: 114 :: 117 :: 101 :: rest) = _
      unfold value
      simp only []
      rw [if_neg (by decide), if_neg (by decide), if_neg (by decide), if_neg (by decide), if_neg (by decide), if_neg (by simp), if_pos (by simp)]
      rfl
  | .integer i, j, h, n, hn, rest, hr => by
    simp only [Value.json, Option.some.injEq] at h
    obtain ⟨n, rfl⟩ : ∃ m, n = m + 1 := ⟨n - 1, by simp [Value.need] at hn; omega⟩
    subst h
    exact value_int n i rest hr
  | .utf8 s, j, h, n, hn, rest, hr => by
    rw [Value.json] at h
    obtain ⟨n, rfl⟩ : ∃ m, n = m + 1 := ⟨n - 1, by simp [Value.need] at hn; omega⟩
    by_cases hs : safeText s = true
    · rw [if_pos hs] at h
      simp only [Option.some.injEq] at h
      subst h
      have e : (Value.utf8 s).text (fmt L) ++ rest = chr '"' :: (quoteLoop L s.length s ++ chr '"' :: rest) := by
        show quote_json_string L s ++ rest = _
        simp [quote_json_string]
      rw [e]
      unfold value
      simp only []
      rw [if_pos (by simp), read_string L hL s rest hs]
      rfl
    · rw [if_neg hs] at h
      cases h
  | .array vs, j, h, n, hn, rest, hr => by
    rw [Value.json] at h
    cases hv : jsonArr vs with
    | none => rw [hv] at h; cases h
    | some js =>
      rw [hv] at h
      simp only [Option.map_some, Option.some.injEq] at h
      subst h
      obtain ⟨n, rfl⟩ : ∃ m, n = m + 1 := ⟨n - 1, by simp [Value.need] at hn; omega⟩
      rw [Value.need] at hn
      have e : (Value.array vs).text (fmt L) ++ rest = chr '[' :: (textArr (fmt L) vs ++ chr ']' :: rest) := by
        rw [Value.text]; simp; exact ⟨rfl, rfl⟩
      rw [e]
      unfold value
      simp only []
      rw [if_neg (by decide), if_pos (by simp)]
      cases vs with
      | nil =>
        simp only [jsonArr, Option.some.injEq] at hv
        subst hv
        rfl
      | cons v vs =>
        obtain ⟨j1, js1, e1, e2, e3⟩ := jsonArr_cons _ _ _ hv
        obtain ⟨c, t, ht, hc, _⟩ := json_first L v j1 e2
        have hh : (textArr (fmt L) (v :: vs) ++ chr ']' :: rest).head? ≠ some (chr ']') := by
          have : ∃ t', textArr (fmt L) (v :: vs) = c :: t' := by
            cases vs with
            | nil => exact ⟨t, by rw [textArr]; exact ht⟩
            | cons w ws => exact ⟨_, by rw [textArr, ht]; rfl; simp⟩
          obtain ⟨t', ht'⟩ := this
          rw [ht']
          simpa using hc
        rw [if_neg hh, elements_text L hL (v :: vs) js hv (by simp) n (by omega) rest]
        rfl
  | .document fs, j, h, n, hn, rest, hr => by
    rw [Value.json] at h
    cases hv : jsonDoc fs with
    | none => rw [hv] at h; cases h
    | some js =>
      rw [hv] at h
      simp only [Option.map_some, Option.some.injEq] at h
      subst h
      obtain ⟨n, rfl⟩ : ∃ m, n = m + 1 := ⟨n - 1, by simp [Value.need] at hn; omega⟩
      rw [Value.need] at hn
      have e : (Value.document fs).text (fmt L) ++ rest = chr '{' :: (textDoc (fmt L) fs ++ chr '}' :: rest) := by
        rw [Value.text]; simp; exact ⟨rfl, rfl⟩
      rw [e]
      unfold value
      simp only []
      rw [if_neg (by decide), if_neg (by decide), if_pos (by simp)]
      cases fs with
      | nil =>
        simp only [jsonDoc, Option.some.injEq] at hv
        subst hv
        rfl
      | cons f fs =>
        obtain ⟨k, v⟩ := f
        have hh : (textDoc (fmt L) ((k, v) :: fs) ++ chr '}' :: rest).head? ≠ some (chr '}') := by
          have : ∃ t', textDoc (fmt L) ((k, v) :: fs) = chr '"' :: t' := by
            cases fs with
            | nil => exact ⟨_, by rw [textDoc]; rfl⟩
            | cons w ws => exact ⟨_, by rw [textDoc]; rfl; simp⟩
          obtain ⟨t', ht'⟩ := this
          rw [ht']
          simp only [List.cons_append, List.head?_cons, ne_eq, Option.some.injEq]
          decide
        rw [if_neg hh, members_text L hL ((k, v) :: fs) js hv (by simp) n (by omega) rest]
        rfl
  | .double _, j, h, _, _, _, _ => by simp [Value.json] at h
  | .binary _, j, h, _, _, _, _ => by simp [Value.json] at h
  | .oid _, j, h, _, _, _, _ => by simp [Value.json] at h
  | .datetime _, j, h, _, _, _, _ => by simp [Value.json] at h
theorem elements_text (L : TextLib) (hL : DecodeOk L) : (vs : List Value) → (js : List J) → jsonArr vs = some js → vs ≠ [] → (n : Nat) → needArr vs ≤ n → (rest : Bytes) →
    elements n (textArr (fmt L) vs ++ chr ']' :: rest) = some (js, rest)
  | [], _, _, h, _, _, _ => absurd rfl h
  | [v], js, h, _, n, hn, rest => by
    obtain ⟨j, js', e1, e2, e3⟩ := jsonArr_cons _ _ _ h
    simp only [jsonArr, Option.some.injEq] at e3
    subst e3 e1
    rw [needArr, needArr] at hn
    obtain ⟨n, rfl⟩ : ∃ m, n = m + 1 := ⟨n - 1, by omega⟩
    rw [textArr]
    unfold elements
    rw [value_text L hL v j e2 n (by omega) _ (stop_cons _ _ (.inr (.inl rfl)))]
    rfl
  | v :: w :: vs, js, h, _, n, hn, rest => by
    obtain ⟨j, js', e1, e2, e3⟩ := jsonArr_cons _ _ _ h
    subst e1
    rw [needArr] at hn
    obtain ⟨n, rfl⟩ : ∃ m, n = m + 1 := ⟨n - 1, by omega⟩
    rw [textArr]
    · rw [show v.text (fmt L) ++ b! "," ++ textArr (fmt L) (w :: vs) ++ chr ']' :: rest = v.text (fmt L) ++ chr ',' :: (textArr (fmt L) (w :: vs) ++ chr ']' :: rest) by simp [chr]]
      unfold elements
      rw [value_text L hL v j e2 n (by omega) _ (stop_cons _ _ (.inl rfl))]
      simp only []
      rw [if_neg (by decide), if_pos (by simp), elements_text L hL (w :: vs) js' e3 (by simp) n (by omega) rest]
      rfl
    · simp
theorem members_text (L : TextLib) (hL : DecodeOk L) : (fs : List (Bytes × Value)) → (js : List (Bytes × J)) → jsonDoc fs = some js → fs ≠ [] → (n : Nat) → needDoc fs ≤ n → (rest : Bytes) →
    members n (textDoc (fmt L) fs ++ chr '}' :: rest) = some (js, rest)
  | [], _, _, h, _, _, _ => absurd rfl h
  | [(k, v)], js, h, _, n, hn, rest => by
    obtain ⟨j, js', e1, e2, e3, hk⟩ := jsonDoc_cons _ _ _ _ h
    simp only [jsonDoc, Option.some.injEq] at e3
    subst e3 e1
    rw [needDoc, needDoc] at hn
    obtain ⟨n, rfl⟩ : ∃ m, n = m + 1 := ⟨n - 1, by omega⟩
    rw [textDoc]
    rw [show quote_json_string L k ++ b! ":" ++ v.text (fmt L) ++ chr '}' :: rest = chr '"' :: (quoteLoop L k.length k ++ chr '"' :: (chr ':' :: (v.text (fmt L) ++ chr '}' :: rest))) by
      simp [quote_json_string, chr]]
    unfold members
    simp only []
    rw [if_neg (by simp), read_string L hL k _ hk]
    simp only []
    rw [if_neg (by simp), value_text L hL v j e2 n (by omega) _ (stop_cons _ _ (.inr (.inr rfl)))]
    rfl
  | (k, v) :: w :: fs, js, h, _, n, hn, rest => by
    obtain ⟨j, js', e1, e2, e3, hk⟩ := jsonDoc_cons _ _ _ _ h
    subst e1
    rw [needDoc] at hn
    obtain ⟨n, rfl⟩ : ∃ m, n = m + 1 := ⟨n - 1, by omega⟩
    rw [textDoc]
    · rw [show quote_json_string L k ++ b! ":" ++ v.text (fmt L) ++ b! "," ++ textDoc (fmt L) (w :: fs) ++ chr '}' :: rest
          = chr '"' :: (quoteLoop L k.length k ++ chr '"' :: (chr ':' :: (v.text (fmt L) ++ chr ',' :: (textDoc (fmt L) (w :: fs) ++ chr '}' :: rest)))) by
        simp [quote_json_string, chr]]
      unfold members
      simp only []
      rw [if_neg (by simp), read_string L hL k _ hk]
      simp only []
      rw [if_neg (by simp), value_text L hL v j e2 n (by omega) _ (stop_cons _ _ (.inl rfl))]
      simp only []
      rw [if_neg (by decide), if_pos (by simp), members_text L hL (w :: fs) js' e3 (by simp) n (by omega) rest]
      rfl
    · simp
end

mutual
theorem need_le (L : TextLib) : (v : Value) → (j : J) → v.json = some j → v.need + 1 ≤ 2 * (v.text (fmt L)).length
  | .array vs, j, h => by
    rw [Value.json] at h
    cases hv : jsonArr vs with
    | none => rw [hv] at h; cases h
    | some js =>
      have := needArr_le L vs js hv
      rw [Value.text, Value.need]
      simp only [List.length_append, List.length_cons, List.length_nil]
      omega
  | .document fs, j, h => by
    rw [Value.json] at h
    cases hv : jsonDoc fs with
    | none => rw [hv] at h; cases h
    | some js =>
      have := needDoc_le L fs js hv
      rw [Value.text, Value.need]
      simp only [List.length_append, List.length_cons, List.length_nil]
      omega
  | .null, j, h => by obtain ⟨c, t, e, _⟩ := json_first L _ j h; rw [e]; simp only [Value.need, List.length_cons]; omega
  | .boolean b, j, h => by obtain ⟨c, t, e, _⟩ := json_first L _ j h; rw [e]; simp only [Value.need, List.length_cons]; omega
  | .integer b, j, h => by obtain ⟨c, t, e, _⟩ := json_first L _ j h; rw [e]; simp only [Value.need, List.length_cons]; omega
  | .utf8 b, j, h => by obtain ⟨c, t, e, _⟩ := json_first L _ j h; rw [e]; simp only [Value.need, List.length_cons]; omega
  | .double _, j, h => by simp [Value.json] at h
  | .binary _, j, h => by simp [Value.json] at h
  | .oid _, j, h => by simp [Value.json] at h
  | .datetime _, j, h => by simp [Value.json] at h
theorem needArr_le (L : TextLib) : (vs : List Value) → (js : List J) → jsonArr vs = some js → needArr vs ≤ 2 * (textArr (fmt L) vs).length
  | [], _, _ => Nat.zero_le _
  | [v], js, h => by
    obtain ⟨j, js', e1, e2, e3⟩ := jsonArr_cons _ _ _ h
    have := need_le L v j e2
    rw [textArr, needArr, needArr]
    omega
  | v :: w :: vs, js, h => by
    obtain ⟨j, js', e1, e2, e3⟩ := jsonArr_cons _ _ _ h
    have := need_le L v j e2
    have := needArr_le L (w :: vs) js' e3
    rw [textArr, needArr]
    · simp only [List.length_append, List.length_cons, List.length_nil]
      omega
    · simp
theorem needDoc_le (L : TextLib) : (fs : List (Bytes × Value)) → (js : List (Bytes × J)) → jsonDoc fs = some js → needDoc fs ≤ 2 * (textDoc (fmt L) fs).length
  | [], _, _ => Nat.zero_le _
  | [(k, v)], js, h => by
    obtain ⟨j, js', e1, e2, e3, _⟩ := jsonDoc_cons _ _ _ _ h
    have := need_le L v j e2
    rw [textDoc, needDoc, needDoc]
    simp only [List.length_append, List.length_cons, List.length_nil]
    omega
  | (k, v) :: w :: fs, js, h => by
    obtain ⟨j, js', e1, e2, e3, _⟩ := jsonDoc_cons _ _ _ _ h
    have := need_le L v j e2
    have := needDoc_le L (w :: fs) js' e3
    rw [textDoc, needDoc]
    · simp only [List.length_append, List.length_cons, List.length_nil]
      omega
    · simp
end

/-- A JSON value is read back. -/
theorem read_text (L : TextLib) (hL : DecodeOk L) (v : Value) (j : J) (h : v.json = some j) : Json.read (v.text (fmt L)) = some j := by
  unfold Json.read
  have h1 := need_le L v j h
  have h2 := value_text L hL v j h (2 * (v.text (fmt L)).length + 2) (by omega) [] (by intro c hc; simp at hc)
  rw [List.append_nil] at h2
  rw [h2]

/-! ### Base64 -/

theorem digit64_bits : ∀ n < 64, bits64 (digit64 n) = some n ∧ digit64 n ≠ chr '=' := by decide

theorem decode_encode (s : Bytes) : decode64 (encodeBlock s) = some s := by
  induction s using encodeBlock.induct with
  | case1 => rfl
  | case2 a =>
    have := UInt8.toNat_lt a
    rw [encodeBlock, decode64, (digit64_bits _ (by omega)).1, (digit64_bits _ (by omega)).1]
    simp only []
    rw [if_pos ⟨trivial, trivial⟩, if_pos ⟨trivial, by omega⟩, show a.toNat / 4 * 4 + a.toNat % 4 * 16 / 16 = a.toNat by omega]
    simp
  | case3 a b =>
    have := UInt8.toNat_lt a
    have := UInt8.toNat_lt b
    rw [encodeBlock, decode64, (digit64_bits _ (by omega)).1, (digit64_bits _ (by omega)).1, (digit64_bits _ (by omega)).1]
    simp only []
    rw [if_neg (fun h => (digit64_bits _ (by omega)).2 h.1), if_pos trivial, if_pos ⟨trivial, by omega⟩,
      show a.toNat / 4 * 4 + (a.toNat % 4 * 16 + b.toNat / 16) / 16 = a.toNat by omega,
      show (a.toNat % 4 * 16 + b.toNat / 16) % 16 * 16 + b.toNat % 16 * 4 / 4 = b.toNat by omega]
    simp
  | case4 a b c s ih =>
    have := UInt8.toNat_lt a
    have := UInt8.toNat_lt b
    have := UInt8.toNat_lt c
    rw [encodeBlock, decode64, (digit64_bits _ (by omega)).1, (digit64_bits _ (by omega)).1, (digit64_bits _ (by omega)).1, (digit64_bits _ (by omega)).1]
    simp only []
    rw [if_neg (fun h => (digit64_bits _ (by omega)).2 h.1), if_neg (digit64_bits _ (by omega)).2, ih,
      show a.toNat / 4 * 4 + (a.toNat % 4 * 16 + b.toNat / 16) / 16 = a.toNat by omega,
      show (a.toNat % 4 * 16 + b.toNat / 16) % 16 * 16 + (b.toNat % 16 * 4 + c.toNat / 64) / 4 = b.toNat by omega,
      show (b.toNat % 16 * 4 + c.toNat / 64) % 4 * 64 + c.toNat % 64 = c.toNat by omega]
    simp

theorem encode_length (s : Bytes) : (encodeBlock s).length = (s.length + 2) / 3 * 4 := by
  induction s using encodeBlock.induct with
  | case1 => rfl
  | case2 a => simp [encodeBlock]
  | case3 a b => simp [encodeBlock]
  | case4 a b c s ih => simp only [encodeBlock, List.length_cons, ih]; omega

theorem encode_append (s t : Bytes) (h : s.length % 3 = 0) : encodeBlock (s ++ t) = encodeBlock s ++ encodeBlock t := by
  induction s using encodeBlock.induct with
  | case1 => rfl
  | case2 a => simp at h
  | case3 a b => simp at h
  | case4 a b c s ih =>
    simp only [List.cons_append, encodeBlock]
    rw [ih (by simp only [List.length_cons] at h; omega)]

/-- Blocks of 48 bytes give the same text as a single block. -/
theorem blocks_eq (n : Nat) (s : Bytes) (h : s.length ≤ n) : blocks64 n s = encodeBlock s := by
  induction n generalizing s with
  | zero =>
    have : s = [] := List.eq_nil_of_length_eq_zero (by omega)
    subst this
    rfl
  | succ n ih =>
    cases s with
    | nil => rfl
    | cons c s =>
      simp only [blocks64]
      rw [ih _ (by simp only [List.length_drop, List.length_cons] at *; omega), List.take_of_length_le (by rw [encode_length]; exact Nat.le_refl _)]
      by_cases hl : (c :: s).length ≤ 48
      · rw [List.take_of_length_le hl, List.drop_of_length_le hl]
        simp [encodeBlock]
      · rw [← encode_append _ _ (by rw [List.length_take]; omega), List.take_append_drop]

end Verif.Mongo
