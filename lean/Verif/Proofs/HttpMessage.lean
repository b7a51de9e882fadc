import Verif.Proofs.Http
/-! # Proofs about HTTP messages -/
namespace Verif.Http
open Verif.Spec

/-! ### Numbers -/

theorem digits_decNum (fuel n : Nat) (h : n ≤ fuel) : DecNum (digits 10 (fun d => UInt8.ofNat (0x30 + d)) fuel n) n := by
  induction fuel generalizing n with
  | zero => obtain rfl : n = 0 := by omega
            exact DecNum.snoc 0 .nil (by decide)
  | succ f ih =>
    unfold digits
    by_cases hn : n < 10
    · rw [if_pos hn]; simpa using DecNum.snoc n .nil hn
    · rw [if_neg hn]
      have := DecNum.snoc (n % 10) (ih (n / 10) (by omega)) (by omega)
      rwa [show n / 10 * 10 + n % 10 = n by omega] at this

theorem decimal_decNum (n : Nat) : DecNum (decimal n) n := digits_decNum n n (Nat.le_refl n)

theorem upper_hex_digit (d : Nat) (h : d < 16) : HexDigit (upper_hex d) d := by
  unfold upper_hex
  split
  · exact .dec d (by omega)
  · exact .upper d (by omega) h

theorem digits_hexNum (fuel n : Nat) (h : n ≤ fuel) : HexNum (digits 16 upper_hex fuel n) n := by
  induction fuel generalizing n with
  | zero => obtain rfl : n = 0 := by omega
            exact HexNum.snoc (n := 0) .nil (upper_hex_digit 0 (by decide))
  | succ f ih =>
    unfold digits
    by_cases hn : n < 16
    · rw [if_pos hn]; simpa using HexNum.snoc (ds := []) (n := 0) .nil (upper_hex_digit n hn)
    · rw [if_neg hn]
      have := HexNum.snoc (ih (n / 16) (by omega)) (upper_hex_digit (n % 16) (by omega))
      rwa [show n / 16 * 16 + n % 16 = n by omega] at this

theorem hex_length_hexNum (n : Nat) : HexNum (hex_length n) n := digits_hexNum n n (Nat.le_refl n)

theorem digits_ne (b : Nat) (d : Nat → Byte) (fuel n : Nat) : digits b d fuel n ≠ [] := by
  cases fuel with
  | zero => simp [digits]
  | succ f => unfold digits; split <;> simp

theorem decNum_oneLine {t : Bytes} {n : Nat} (h : DecNum t n) : OneLine t := by
  constructor <;> intro hm <;> have := Uri.decNum_digits h _ hm <;> simp [Uri.isDigit] at this

/-! ### Lines -/

theorem readHead_cons (c : Byte) (t cur : Bytes) (hc : c ≠ 13) : readHead (c :: t) cur = readHead t (cur ++ [c]) := by
  conv => lhs; unfold readHead
  split
  · next h => simp only [List.cons.injEq] at h; exact absurd h.1 hc
  · next h => simp only [List.cons.injEq] at h; rw [h.1, h.2]
  · next h => simp at h

theorem readHead_line (l : Bytes) (h : OneLine l) (t cur : Bytes) : readHead (l ++ (crlf ++ t)) cur =
    if cur ++ l = [] then some ([], t) else match readHead t [] with
      | none => none
      | some (ls, r) => some ((cur ++ l) :: ls, r) := by
  induction l generalizing cur with
  | nil => simp only [List.nil_append, crlf, List.cons_append, readHead, List.append_nil]; rfl
  | cons c l ih =>
    have hc : c ≠ 13 := fun e => h.1 (by simp [e])
    rw [List.cons_append, readHead_cons _ _ _ hc, ih ⟨fun e => h.1 (List.mem_cons_of_mem _ e), fun e => h.2 (List.mem_cons_of_mem _ e)⟩]
    simp

/-- Reading a head that consists of non-empty single lines. -/
theorem readHead_lines (ls : List Bytes) (h : ∀ l ∈ ls, OneLine l ∧ l ≠ []) (body : Bytes) :
    readHead (ls.flatMap (fun l => l ++ crlf) ++ (crlf ++ body)) [] = some (ls, body) := by
  induction ls with
  | nil => rfl
  | cons l ls ih =>
    have hl := h l (by simp)
    rw [List.flatMap_cons, List.append_assoc, List.append_assoc, readHead_line l hl.1, if_neg (by simpa using hl.2),
      ih (fun x hx => h x (List.mem_cons_of_mem _ hx))]
    rfl

/-- The header lines that are written. -/
def header_lines (hs : List (Bytes × Bytes)) : List Bytes :=
  (hs.filter (fun h => h.1 ≠ [])).map (fun h => h.1 ++ b! ": " ++ h.2)

theorem shift_crlf (start : Bytes) (ls : List Bytes) (t : Bytes) :
    start ++ (ls.flatMap (fun l => crlf ++ l) ++ (crlf ++ t)) = (start :: ls).flatMap (fun l => l ++ crlf) ++ t := by
  induction ls generalizing start with
  | nil => simp
  | cons l ls ih =>
    have := ih l
    simp only [List.flatMap_cons, List.append_assoc] at this ⊢
    rw [this]

theorem header_flat (hs : List (Bytes × Bytes)) : hs.flatMap header_line = (header_lines hs).flatMap (fun l => crlf ++ l) := by
  induction hs with
  | nil => rfl
  | cons h hs ih =>
    rw [List.flatMap_cons, ih]
    unfold header_lines header_line
    by_cases hh : h.1 = []
    · simp [hh]
    · simp [hh]

/-- The status line that is written. -/
def status_line (status_str : Nat → Bytes) (r : SHeaders) : Bytes :=
  b! "HTTP/1.1 " ++ decimal r.status ++ b! " " ++ (if r.reason ≠ [] then r.reason else status_str r.status)

theorem encode_lines (status_str : Nat → Bytes) (r : SHeaders) (body : Bytes) : raw_response status_str r body =
    (status_line status_str r :: header_lines r.headers).flatMap (fun l => l ++ crlf) ++ (crlf ++ body) := by
  unfold raw_response SHeaders.encode
  rw [header_flat, ← shift_crlf]
  simp only [status_line, List.append_assoc]

theorem oneLine_append {a b : Bytes} (ha : OneLine a) (hb : OneLine b) : OneLine (a ++ b) := by
  constructor <;> intro h <;> rcases List.mem_append.1 h with h | h
  · exact ha.1 h
  · exact hb.1 h
  · exact ha.2 h
  · exact hb.2 h

theorem raw_response_read (status_str : Nat → Bytes) (r : SHeaders) (body : Bytes) (h1 : OneLine r.reason) (h2 : OneLine (status_str r.status))
    (h3 : ∀ h ∈ r.headers, OneLine h.1 ∧ OneLine h.2) :
    readHead (raw_response status_str r body) [] = some (status_line status_str r :: header_lines r.headers, body) := by
  rw [encode_lines]
  apply readHead_lines
  intro l hl
  simp only [List.mem_cons] at hl
  have lit : OneLine (b! "HTTP/1.1 ") ∧ OneLine (b! " ") ∧ OneLine (b! ": ") := by unfold OneLine; decide
  rcases hl with rfl | hl
  · refine ⟨?_, by simp [status_line]⟩
    unfold status_line
    refine oneLine_append (oneLine_append (oneLine_append lit.1 (decNum_oneLine (decimal_decNum _))) lit.2.1) ?_
    split <;> assumption
  · simp only [header_lines, List.mem_map, List.mem_filter] at hl
    obtain ⟨h, ⟨hm, _⟩, rfl⟩ := hl
    exact ⟨oneLine_append (oneLine_append (h3 h hm).1 lit.2.2) (h3 h hm).2, by simp⟩

/-! ### Chunked bodies -/

theorem hexNum_chars {ds : Bytes} {n : Nat} (h : HexNum ds n) : (13 : Byte) ∉ ds := by
  induction h with
  | nil => simp
  | snoc _ hd ih =>
    intro hm
    rcases List.mem_append.1 hm with h | h
    · exact ih h
    · simp only [List.mem_singleton] at h
      rw [← h] at hd
      have := (Uri.hexval_iff _ _).2 hd
      simp [Uri.hexval] at this

theorem hexNum_unique {ds : Bytes} {n m : Nat} (h : HexNum ds n) (h' : HexNum ds m) : n = m := by
  have a := (Hex.hexAcc_hexNum ds n).2 h
  have b := (Hex.hexAcc_hexNum ds m).2 h'
  rw [a] at b; simpa using b

/-- The part of a text before the first CR is determined. -/
theorem cr_split {a b s t : Bytes} (ha : (13 : Byte) ∉ a) (hb : (13 : Byte) ∉ b) (h : a ++ 13 :: s = b ++ 13 :: t) : a = b ∧ s = t := by
  rcases List.append_eq_append_iff.1 h with ⟨c, rfl, h2⟩ | ⟨c, rfl, h2⟩
  · cases c with
    | nil => simp at h2; exact ⟨by simp, h2⟩
    | cons x c =>
      simp only [List.cons_append, List.cons.injEq] at h2
      exact absurd (by simp [← h2.1]) hb
  · cases c with
    | nil => simp at h2; exact ⟨by simp, h2.symm⟩
    | cons x c =>
      simp only [List.cons_append, List.cons.injEq] at h2
      exact absurd (by simp [← h2.1]) ha

theorem chunked_unique {w d r : Bytes} (h : ChunkedBody w d r) : ∀ {d' r' : Bytes}, ChunkedBody w d' r' → d = d' ∧ r = r' := by
  induction h with
  | @last ds rest hne hz =>
    intro d' r' h'
    generalize hw : ds ++ [13, 10] ++ [13, 10] ++ rest = w' at h'
    cases h' with
    | @last ds' rest' hne' hz' =>
      have e : ds ++ 13 :: (10 :: 13 :: 10 :: rest) = ds' ++ 13 :: (10 :: 13 :: 10 :: r') := by simpa using hw
      have := cr_split (hexNum_chars hz) (hexNum_chars hz') e
      refine ⟨rfl, by simpa using this.2⟩
    | @chunk ds' n c w d rest' hne' hz' hp hc hw' =>
      have e : ds ++ 13 :: (10 :: 13 :: 10 :: rest) = ds' ++ 13 :: (10 :: (c ++ 13 :: 10 :: w)) := by simpa using hw
      have := cr_split (hexNum_chars hz) (hexNum_chars hz') e
      rw [this.1] at hz
      have := hexNum_unique hz hz'
      omega
  | @chunk ds n c w d rest hne hz hp hc hw ih =>
    intro d' r' h'
    generalize hw' : ds ++ [13, 10] ++ c ++ [13, 10] ++ w = w' at h'
    cases h' with
    | @last ds' rest' hne' hz' =>
      have e : ds ++ 13 :: (10 :: (c ++ 13 :: 10 :: w)) = ds' ++ 13 :: (10 :: 13 :: 10 :: r') := by simpa using hw'
      have := cr_split (hexNum_chars hz) (hexNum_chars hz') e
      rw [this.1] at hz
      have := hexNum_unique hz hz'
      omega
    | @chunk ds' n' c' w2 d2 rest' hne' hz' hp' hc' hw2 =>
      have e : ds ++ 13 :: (10 :: (c ++ 13 :: 10 :: w)) = ds' ++ 13 :: (10 :: (c' ++ 13 :: 10 :: w2)) := by simpa using hw'
      have e2 := cr_split (hexNum_chars hz) (hexNum_chars hz') e
      rw [e2.1] at hz
      have hn := hexNum_unique hz hz'
      have e3 : c ++ (13 :: 10 :: w) = c' ++ (13 :: 10 :: w2) := by simpa using e2.2
      have hl : c.length = c'.length := by omega
      obtain ⟨rfl, e4⟩ := List.append_inj e3 hl
      obtain rfl : w = w2 := by simpa using e4
      obtain ⟨rfl, rfl⟩ := ih hw2
      exact ⟨rfl, rfl⟩

theorem chunked_extend {w d r : Bytes} (h : ChunkedBody w d r) (x : Bytes) : ChunkedBody (w ++ x) d (r ++ x) := by
  induction h with
  | last hne hz => simpa using ChunkedBody.last (rest := _ ++ x) hne hz
  | chunk hne hz hp hc _ ih => simpa using ChunkedBody.chunk hne hz hp hc ih

theorem chunked_sends (sends : List Bytes) (rest : Bytes) :
    ChunkedBody (sends.flatMap chunked_send ++ (chunked_finish ++ rest)) sends.flatten rest := by
  induction sends with
  | nil => exact ChunkedBody.last (ds := [0x30]) (by simp) (HexNum.snoc (n := 0) .nil (.dec 0 (by decide)))
  | cons s sends ih =>
    rw [List.flatMap_cons, List.flatten_cons, List.append_assoc]
    by_cases hs : s.length = 0
    · obtain rfl : s = [] := List.length_eq_zero_iff.1 hs
      exact ih
    · rw [show chunked_send s = hex_length s.length ++ crlf ++ s ++ crlf from if_neg hs]
      have := ChunkedBody.chunk (digits_ne 16 upper_hex s.length s.length) (hex_length_hexNum s.length) (by omega) rfl ih
      simpa [crlf, hex_length] using this

end Verif.Http
