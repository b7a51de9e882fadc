import Verif.Proofs.MongoText
/-!
# C81: the JSON texts of Mongo values
-/
namespace Verif.Props
open Verif.Mongo

/-- The statement about strings, which does not hold: what is printed for a text is a JSON string. -/
def QuotesText (L : TextLib) : Prop := ∀ s, ∃ j, Json.read (quote_json_string L s) = some j

/-- C81 (part): a value made of nulls, booleans, integers, texts, arrays and documents, at any depth, is printed as a JSON text that reads back as the same value, if all characters
in its texts and keys are safe ones.  Missing: texts with other characters, for which it does not hold, see `C81_escape_violated`; floating-point numbers. -/
theorem C81_json_partial (L : TextLib) (hL : DecodeOk L) (v : Value) (j : Json.J) (h : v.json = some j) : ∃ t, to_string L v = some t ∧ Json.read t = some j :=
  ⟨_, print_value (fmt L) v [], by simpa using read_text L hL v j h⟩

/-- A decoder of ASCII characters, which meets the contract. -/
def asciiLib : TextLib := { decode := fun s => match s with | [] => none | b :: _ => if b.toNat < 128 then some (b.toNat, 1) else none, double := fun _ => [], millis := fun n => n / 1000000 }

theorem asciiLib_ok : DecodeOk asciiLib := by
  refine ⟨fun b s h => ?_, fun b s cp k h hd => ?_⟩
  · simp [asciiLib, h]
  · simp only [asciiLib] at hd
    rw [if_neg (by omega)] at hd
    cases hd

/-- Non-vacuity: a nested value, and its text. -/
example : DecodeOk asciiLib ∧
    (Value.document [(b! "a\"b", .array [.integer (-120), .array [], .null, .boolean true]), (b! "k", .document [(b! "x", .utf8 (b! "tab\tend\\"))])]).json
      = some (.obj [(b! "a\"b", .arr [.int (-120), .arr [], .null, .bool true]), (b! "k", .obj [(b! "x", .str (b! "tab\tend\\"))])]) ∧
    (to_string asciiLib (.document [(b! "a\"b", .array [.integer (-120), .array [], .null, .boolean true]), (b! "k", .document [(b! "x", .utf8 (b! "tab\tend\\"))])]))
      = some (b! "{\"a\\\"b\":[-120,[],null,true],\"k\":{\"x\":\"tab\\tend\\\\\"}}") := ⟨asciiLib_ok, rfl, by decide +kernel⟩

/-- C81: a safe text is printed as the JSON string with the same characters; what is printed for any other text is not JSON at all, with any decoder that meets the contract.  The
digits of an escape sequence are preceded by `0x`, which a reader does not accept. -/
theorem C81_escape_violated (L : TextLib) (hL : DecodeOk L) (s : Bytes) :
    Json.read (quote_json_string L s) = if safeText s then some (.str s) else none := by
  by_cases h : safeText s = true
  · rw [if_pos h]
    exact read_text L hL (.utf8 s) (.str s) (by rw [Value.json, if_pos h])
  · rw [if_neg h]
    simp only [Bool.not_eq_true] at h
    unfold Json.read
    have : ∀ n, Json.value (n + 1) (quote_json_string L s) = none := by
      intro n
      rw [quote_json_string, Json.value]
      simp only []
      rw [if_pos trivial, chars_unsafe L hL s _ h]
      rfl
    rw [this]

/-- The statement is false for every decoder. -/
theorem C81_escape_false (L : TextLib) (hL : DecodeOk L) : ¬ QuotesText L := by
  intro h
  obtain ⟨j, hj⟩ := h [1]
  rw [C81_escape_violated L hL] at hj
  cases hj

/-- Non-vacuity: what is printed for the character with the number one, and for a delete character. -/
example : quote_json_string asciiLib [1] = b! "\"\\u0x00\"" ∧ quote_json_string asciiLib [127] = b! "\"\\u0x00\"" := ⟨by decide +kernel, by decide +kernel⟩

/-- The digits with which numbers below 16 are written. -/
def hexUpper : Bytes := b! "0123456789ABCDEF"

/-- C81: what is printed instead of an escape sequence, for a text of one character that is neither printable ASCII nor has a short escape: the prefix of the number takes the place of the first two digits, and
the last two digits of each number, or of both together, are missing. -/
theorem C81_escape_text (L : TextLib) (s : Bytes) (cp : Nat) (hs : s ≠ []) (hd : L.decode s = some (cp, s.length)) (hc : 0x7F ≤ cp) (hc2 : cp < 0x110000) :
    quote_json_string L s = if cp < 0x10000 then b! "\"\\u0x" ++ [hexUpper.getD (cp / 4096) 0, hexUpper.getD (cp / 256 % 16) 0] ++ b! "\""
      else
        let high := 0xD800 + (cp - 0x10000) / 0x400
        let low := 0xDC00 + (cp - 0x10000) % 0x400
        b! "\"\\u0x" ++ [hexUpper.getD (high / 4096) 0, hexUpper.getD (high / 256 % 16) 0] ++ b! "\\u" ++
          [hexUpper.getD (high / 16 % 16) 0, hexUpper.getD (high % 16) 0, hexUpper.getD (low / 4096) 0, hexUpper.getD (low / 256 % 16) 0] ++ b! "\"" := by
  have hq : quote_json_string L s = chr '"' :: (quoteChar cp ++ [chr '"']) := by
    unfold quote_json_string
    cases s with
    | nil => exact absurd rfl hs
    | cons c t =>
      rw [show (c :: t).length = t.length + 1 from rfl, quoteLoop]
      simp only [hd]
      rw [List.drop_length]
      cases t.length <;> simp [quoteLoop]
  have hu : ∀ n < 16, upperDigit n = hexUpper.getD n 0 := by decide
  rw [hq]
  unfold quoteChar
  rw [if_neg (by omega), if_neg (by omega), if_neg (by omega), if_neg (by omega), if_neg (by omega), if_neg (by omega), if_neg (by omega)]
  unfold utf16
  by_cases h : cp < 0x10000
  · rw [if_pos h, if_pos h]
    have e : put_XU ([cp].getD 0 0 * 0x10000 + [cp].getD 1 0) = b! "0x" ++ [hexUpper.getD (cp / 4096) 0, hexUpper.getD (cp / 256 % 16) 0, hexUpper.getD (cp / 16 % 16) 0, hexUpper.getD (cp % 16) 0] ++ b! "0000" := by
      simp only [put_XU, List.getD_cons_zero, List.getD_cons_succ, List.getD_nil]
      rw [show (List.range 8).reverse = [7, 6, 5, 4, 3, 2, 1, 0] from rfl]
      simp only [List.map_cons, List.map_nil]
      rw [hu _ (by omega), hu _ (by omega), hu _ (by omega), hu _ (by omega), hu _ (by omega), hu _ (by omega), hu _ (by omega), hu _ (by omega)]
      rw [show (cp * 65536 + 0) / 16 ^ 7 % 16 = cp / 4096 by omega, show (cp * 65536 + 0) / 16 ^ 6 % 16 = cp / 256 % 16 by omega, show (cp * 65536 + 0) / 16 ^ 5 % 16 = cp / 16 % 16 by omega,
        show (cp * 65536 + 0) / 16 ^ 4 % 16 = cp % 16 by omega, show (cp * 65536 + 0) / 16 ^ 3 % 16 = 0 by omega, show (cp * 65536 + 0) / 16 ^ 2 % 16 = 0 by omega,
        show (cp * 65536 + 0) / 16 ^ 1 % 16 = 0 by omega, show (cp * 65536 + 0) / 16 ^ 0 % 16 = 0 by omega]
      rfl
    dsimp only
    rw [e]
    rfl
  · rw [if_neg h, if_neg h]
    dsimp only
    have hh : 0xD800 + (cp - 0x10000) / 1024 < 65536 := by omega
    have hl : 0xDC00 + (cp - 0x10000) % 1024 < 65536 := by omega
    generalize 0xD800 + (cp - 0x10000) / 1024 = u at hh
    generalize 0xDC00 + (cp - 0x10000) % 1024 = v at hl
    have e : put_XU ([u, v].getD 0 0 * 0x10000 + [u, v].getD 1 0) = b! "0x" ++ [hexUpper.getD (u / 4096) 0, hexUpper.getD (u / 256 % 16) 0, hexUpper.getD (u / 16 % 16) 0, hexUpper.getD (u % 16) 0,
        hexUpper.getD (v / 4096) 0, hexUpper.getD (v / 256 % 16) 0, hexUpper.getD (v / 16 % 16) 0, hexUpper.getD (v % 16) 0] := by
      simp only [put_XU, List.getD_cons_zero, List.getD_cons_succ]
      rw [show (List.range 8).reverse = [7, 6, 5, 4, 3, 2, 1, 0] from rfl]
      simp only [List.map_cons, List.map_nil]
      rw [hu _ (by omega), hu _ (by omega), hu _ (by omega), hu _ (by omega), hu _ (by omega), hu _ (by omega), hu _ (by omega), hu _ (by omega)]
      rw [show (u * 65536 + v) / 16 ^ 7 % 16 = u / 4096 by omega, show (u * 65536 + v) / 16 ^ 6 % 16 = u / 256 % 16 by omega, show (u * 65536 + v) / 16 ^ 5 % 16 = u / 16 % 16 by omega,
        show (u * 65536 + v) / 16 ^ 4 % 16 = u % 16 by omega, show (u * 65536 + v) / 16 ^ 3 % 16 = v / 4096 by omega, show (u * 65536 + v) / 16 ^ 2 % 16 = v / 256 % 16 by omega,
        show (u * 65536 + v) / 16 ^ 1 % 16 = v / 16 % 16 by omega, show (u * 65536 + v) / 16 ^ 0 % 16 = v % 16 by omega]
    rw [e]
    rfl

/-- Non-vacuity: the euro sign, whose number is 20AC, and a musical symbol, whose UTF-16 units are D834 and DD1E. -/
example (L : TextLib) (h1 : L.decode [0xE2, 0x82, 0xAC] = some (0x20AC, 3)) (h2 : L.decode [0xF0, 0x9D, 0x84, 0x9E] = some (0x1D11E, 4)) :
    quote_json_string L [0xE2, 0x82, 0xAC] = b! "\"\\u0x20\"" ∧ quote_json_string L [0xF0, 0x9D, 0x84, 0x9E] = b! "\"\\u0xD8\\u34DD\"" :=
  ⟨by rw [C81_escape_text L _ _ (by decide) h1 (by decide) (by decide)]; decide +kernel, by rw [C81_escape_text L _ _ (by decide) h2 (by decide) (by decide)]; decide +kernel⟩

/-- C81: binary data are printed as the base64 text of the data, of any length, without line breaks. -/
theorem C81_binary (L : TextLib) (s : Bytes) : ∃ t, to_string L (.binary s) = some (b! "{$base64:\"" ++ t ++ b! "\"}") ∧ decode64 t = some s ∧ t.length = (s.length + 2) / 3 * 4 := by
  refine ⟨encodeBlock s, ?_, decode_encode s, encode_length s⟩
  have := print_value (fmt L) (.binary s) []
  rw [to_string, this, ← blocks_eq s.length s (Nat.le_refl _)]
  rfl

/-- Non-vacuity. -/
example : to_string asciiLib (.binary (b! "any carnal pleasure")) = some (b! "{$base64:\"YW55IGNhcm5hbCBwbGVhc3VyZQ==\"}") := by decide +kernel

/-- C81: the text of an object identifier has the two hexadecimal digits of every byte in order. -/
theorem C81_oid (L : TextLib) (s : Bytes) : ∃ t, to_string L (.oid s) = some (b! "{$oid:\"" ++ t ++ b! "\"}") ∧ t.length = 2 * s.length ∧
    ∀ i (hi : i < s.length), ∃ a b, t[2 * i]? = some a ∧ t[2 * i + 1]? = some b ∧ Json.hexVal a = some (s[i].toNat / 16) ∧ Json.hexVal b = some (s[i].toNat % 16) := by
  refine ⟨oidText s, by have := print_value (fmt L) (.oid s) []; rw [to_string, this]; rfl, ?_, ?_⟩
  · induction s with
    | nil => rfl
    | cons c s ih => simp only [oidText, List.flatMap_cons, List.length_append, List.length_cons, List.length_nil] at *; omega
  · induction s with
    | nil => intro i hi; simp at hi
    | cons c s ih =>
      intro i hi
      have hx : ∀ n < 16, Json.hexVal (lowerDigit n) = some n := by decide
      have hc := UInt8.toNat_lt c
      cases i with
      | zero =>
        refine ⟨_, _, rfl, rfl, ?_, ?_⟩
        · rw [hx _ (by omega)]; rfl
        · rw [hx _ (by omega)]; rfl
      | succ i =>
        obtain ⟨a, b, h1, h2, h3, h4⟩ := ih i (by simp at hi; omega)
        refine ⟨a, b, ?_, ?_, h3, h4⟩
        · rw [show 2 * (i + 1) = 2 * i + 1 + 1 by omega]; exact h1
        · rw [show 2 * (i + 1) + 1 = 2 * i + 1 + 1 + 1 by omega]; exact h2

/-- Non-vacuity. -/
example : to_string asciiLib (.oid [0, 17, 0xAB]) = some (b! "{$oid:\"0011ab\"}") := by decide +kernel

end Verif.Props
