import Verif.Model.Uri
import Verif.Spec.Uri
namespace Verif.Uri
open Verif.Spec

theorem isHostChar_iff : ∀ c : Byte, isHostChar c = true ↔ c ∈ hostChars := forall_byte (by decide +kernel)
theorem isHost6Char_iff : ∀ c : Byte, isHost6Char c = true ↔ c ∈ host6Chars := forall_byte (by decide +kernel)
theorem isPathChar_iff : ∀ c : Byte, isPathChar c = true ↔ c ∈ pathChars := forall_byte (by decide +kernel)
theorem isQueryChar_iff : ∀ c : Byte, isQueryChar c = true ↔ c ∈ queryChars := forall_byte (by decide +kernel)
theorem isFragmentChar_iff : ∀ c : Byte, isFragmentChar c = true ↔ c ∈ fragmentChars := forall_byte (by decide +kernel)

/-- What the reference becomes when the parts `p` are found. -/
def store (r : NetworkReference) (p : RefParts) : NetworkReference where
  host := p.host
  is_ipv6 := p.bracketed || r.is_ipv6
  port := (p.port.map Prod.fst).getD r.port
  port_num := (p.port.map Prod.snd).getD r.port_num
  path := p.path.getD r.path
  query := p.query.getD r.query
  fragment := p.fragment.getD r.fragment

/-! ### Ports -/

theorem digit_val : ∀ c : Byte, isDigit c = true → ∃ v, v < 10 ∧ c = UInt8.ofNat (0x30 + v) ∧ c.toNat - 0x30 = v := by
  have : ∀ c : Byte, isDigit c = true → (c.toNat - 0x30) < 10 ∧ c = UInt8.ofNat (0x30 + (c.toNat - 0x30)) :=
    forall_byte (by decide +kernel)
  intro c h
  exact ⟨_, (this c h).1, (this c h).2, rfl⟩

theorem digit_ofNat (v : Nat) (h : v < 10) : isDigit (UInt8.ofNat (0x30 + v)) = true ∧
    (UInt8.ofNat (0x30 + v)).toNat - 0x30 = v := by
  have : ∀ v : Fin 10, isDigit (UInt8.ofNat (0x30 + v.val)) = true ∧ (UInt8.ofNat (0x30 + v.val)).toNat - 0x30 = v.val := by
    decide
  exact this ⟨v, h⟩

theorem decNum_digits {t : Bytes} {n : Nat} (h : DecNum t n) : ∀ c ∈ t, isDigit c = true := by
  induction h with
  | nil => simp
  | snoc v _ hv ih =>
    intro c hc
    rw [List.mem_append, List.mem_singleton] at hc
    rcases hc with hc | rfl
    · exact ih c hc
    · exact (digit_ofNat v hv).1

/-- The value accumulated so far only grows. -/
def accum (ds : Bytes) (n : Nat) : Nat := ds.foldl (fun n c => n * 10 + (c.toNat - 0x30)) n

theorem accum_ge (ds : Bytes) : ∀ n, n ≤ accum ds n := by
  induction ds with
  | nil => intro n; exact Nat.le_refl n
  | cons c t ih =>
    intro n
    have := ih (n * 10 + (c.toNat - 0x30))
    simp only [accum, List.foldl_cons] at this ⊢
    omega

theorem port_value_eq (ds : Bytes) : ∀ n, n ≤ 65535 → port_value ds n = if accum ds n ≤ 65535 then some (accum ds n) else none := by
  induction ds with
  | nil => intro n h; simp [port_value, accum, h]
  | cons c t ih =>
    intro n h
    simp only [port_value]
    have e : accum (c :: t) n = accum t (n * 10 + (c.toNat - 0x30)) := rfl
    rw [e]
    split
    · rename_i h2; exact ih _ h2
    · rename_i h2
      have := accum_ge t (n * 10 + (c.toNat - 0x30))
      rw [if_neg (by omega)]

theorem accum_snoc (ds : Bytes) (c : Byte) (n : Nat) : accum (ds ++ [c]) n = accum ds n * 10 + (c.toNat - 0x30) := by
  simp [accum]

theorem accum_decNum {t : Bytes} {n : Nat} (h : DecNum t n) : accum t 0 = n := by
  induction h with
  | nil => rfl
  | snoc v _ hv ih => rw [accum_snoc, ih, (digit_ofNat v hv).2]

theorem decNum_accum (t : Bytes) (h : ∀ c ∈ t, isDigit c = true) : DecNum t (accum t 0) := by
  induction ht : t.reverse generalizing t with
  | nil => have : t = [] := by simpa using ht
           subst this; exact .nil
  | cons c r ih =>
    have e : t = r.reverse ++ [c] := by have := congrArg List.reverse ht; simpa using this
    subst e
    rw [accum_snoc]
    obtain ⟨v, hv, e1, e2⟩ := digit_val c (h c (by simp))
    rw [e2, e1]
    exact .snoc v (ih r.reverse (fun x hx => h x (by simp at hx ⊢; exact Or.inl hx)) (by simp)) hv

/-! ### Greedy scanning -/

theorem takeWhile_all {p : Byte → Bool} {l : Bytes} : ∀ c ∈ l.takeWhile p, p c = true := by
  induction l with
  | nil => simp
  | cons a t ih =>
    rw [List.takeWhile_cons]
    split
    · intro c hc; rcases List.mem_cons.mp hc with rfl | hc
      · assumption
      · exact ih c hc
    · simp

/-- The scan stops exactly at the first non-member. -/
theorem scan {p : Byte → Bool} {l rest : Bytes} (h : ∀ c ∈ l, p c = true) (hr : ∀ c, rest.head? = some c → p c = false) :
    (l ++ rest).takeWhile p = l ∧ (l ++ rest).dropWhile p = rest := by
  induction l with
  | nil =>
    cases rest with
    | nil => simp
    | cons a t => have := hr a rfl; simp [this]
  | cons a t ih =>
    have ha := h a (by simp)
    obtain ⟨h1, h2⟩ := ih (fun c hc => h c (by simp [hc]))
    simp [ha, h1, h2]

/-! ### Soundness, part by part -/

theorem parse_host_sound {r r1 : NetworkReference} {s s1 : Bytes} (h : parse_host r s = some (r1, s1)) :
    ∃ (b : Bool) (host : Bytes), host ≠ [] ∧ (∀ c ∈ host, c ∈ (if b then host6Chars else hostChars)) ∧
      s = (if b then b! "[" ++ host ++ b! "]" else host) ++ s1 ∧
      r1 = { r with host := host, is_ipv6 := b || r.is_ipv6 } := by
  unfold parse_host at h
  match s with
  | [] => simp at h
  | c :: t =>
    simp only at h
    split at h
    · rename_i hc
      split at h
      · simp at h
      · rename_i hne
        split at h
        · simp at h
        · rename_i d rest' hrest
          split at h
          · simp at h
          · rename_i hd
            simp only [ne_eq, Decidable.not_not] at hd
            simp only [Option.some.injEq, Prod.mk.injEq] at h
            obtain ⟨rfl, rfl⟩ := h
            refine ⟨true, t.takeWhile isHost6Char, hne, ?_, ?_, ?_⟩
            · intro x hx; simpa using (isHost6Char_iff x).mp (takeWhile_all x hx)
            · have := List.takeWhile_append_dropWhile (p := isHost6Char) (l := t)
              rw [hrest] at this
              subst hc hd
              conv => lhs; rw [← this]
              have e1 : chr '[' = (0x5B : Byte) := rfl
              have e2 : chr ']' = (0x5D : Byte) := rfl
              simp [e1, e2]
            · simp
    · split at h
      · simp at h
      · rename_i hne
        simp only [Option.some.injEq, Prod.mk.injEq] at h
        obtain ⟨rfl, rfl⟩ := h
        refine ⟨false, (c :: t).takeWhile isHostChar, hne, ?_, ?_, ?_⟩
        · intro x hx; simpa using (isHostChar_iff x).mp (takeWhile_all x hx)
        · simpa using (List.takeWhile_append_dropWhile (p := isHostChar) (l := c :: t)).symm
        · simp

theorem parse_port_sound {r r1 : NetworkReference} {s s1 : Bytes} (h : parse_port r s = some (r1, s1)) :
    ∃ port : Option (Bytes × Nat), (∀ t n, port = some (t, n) → t ≠ [] ∧ DecNum t n ∧ n ≤ 65535) ∧
      s = optText (b! ":") (port.map Prod.fst) ++ s1 ∧
      r1 = { r with port := (port.map Prod.fst).getD r.port
                    port_num := (port.map Prod.snd).getD r.port_num } := by
  unfold parse_port at h
  match s with
  | [] =>
    simp only [Option.some.injEq, Prod.mk.injEq] at h
    obtain ⟨rfl, rfl⟩ := h
    exact ⟨none, by simp, by simp [optText], by simp⟩
  | c :: t =>
    simp only at h
    split at h
    · rename_i hc
      split at h
      · simp at h
      · rename_i hne
        split at h
        · simp at h
        · rename_i n hn
          simp only [Option.some.injEq, Prod.mk.injEq] at h
          obtain ⟨rfl, rfl⟩ := h
          rw [port_value_eq _ 0 (by omega)] at hn
          split at hn
          · rename_i hle
            simp only [Option.some.injEq] at hn
            subst hn
            refine ⟨some (t.takeWhile isDigit, _), ?_, ?_, rfl⟩
            · intro t' n' e
              simp only [Option.some.injEq, Prod.mk.injEq] at e
              obtain ⟨rfl, rfl⟩ := e
              exact ⟨hne, decNum_accum _ takeWhile_all, hle⟩
            · subst hc
              simp only [optText, Option.map_some]
              rw [List.append_assoc, List.takeWhile_append_dropWhile]
              rfl
          · simp at hn
    · simp only [Option.some.injEq, Prod.mk.injEq] at h
      obtain ⟨rfl, rfl⟩ := h
      exact ⟨none, by simp, by simp [optText], by simp⟩

theorem parse_path_sound (r : NetworkReference) (s : Bytes) :
    ∃ path : Option Bytes, (∀ t, path = some t → (∃ t', t = b! "/" ++ t') ∧ ∀ c ∈ t, c ∈ pathChars) ∧
      s = optText [] path ++ (parse_path r s).2 ∧
      (parse_path r s).1 = { r with path := path.getD r.path } := by
  unfold parse_path
  match s with
  | [] => exact ⟨none, by simp, by simp [optText], by simp⟩
  | c :: t =>
    simp only
    split
    · rename_i hc
      refine ⟨some ((c :: t).takeWhile isPathChar), ?_, ?_, rfl⟩
      · intro t' e
        simp only [Option.some.injEq] at e
        subst e
        refine ⟨⟨t.takeWhile isPathChar, ?_⟩, fun x hx => (isPathChar_iff x).mp (takeWhile_all x hx)⟩
        subst hc
        rw [List.takeWhile_cons_of_pos (by decide)]
        rfl
      · simp only [optText, List.nil_append]
        rw [List.takeWhile_append_dropWhile]
    · exact ⟨none, by simp, by simp [optText], by simp⟩

theorem parse_query_sound (r : NetworkReference) (s : Bytes) :
    ∃ query : Option Bytes, (∀ t, query = some t → ∀ c ∈ t, c ∈ queryChars) ∧
      s = optText (b! "?") query ++ (parse_query r s).2 ∧
      (parse_query r s).1 = { r with query := query.getD r.query } := by
  unfold parse_query
  match s with
  | [] => exact ⟨none, by simp, by simp [optText], by simp⟩
  | c :: t =>
    simp only
    split
    · rename_i hc
      refine ⟨some (t.takeWhile isQueryChar), ?_, ?_, rfl⟩
      · intro t' e
        simp only [Option.some.injEq] at e
        subst e
        exact fun x hx => (isQueryChar_iff x).mp (takeWhile_all x hx)
      · subst hc
        simp only [optText]
        rw [List.append_assoc, List.takeWhile_append_dropWhile]
        rfl
    · exact ⟨none, by simp, by simp [optText], by simp⟩

theorem parse_fragment_sound (r : NetworkReference) (s : Bytes) :
    ∃ fragment : Option Bytes, (∀ t, fragment = some t → ∀ c ∈ t, c ∈ fragmentChars) ∧
      s = optText (b! "#") fragment ++ (parse_fragment r s).2 ∧
      (parse_fragment r s).1 = { r with fragment := fragment.getD r.fragment } := by
  unfold parse_fragment
  match s with
  | [] => exact ⟨none, by simp, by simp [optText], by simp⟩
  | c :: t =>
    simp only
    split
    · rename_i hc
      refine ⟨some (t.takeWhile isFragmentChar), ?_, ?_, rfl⟩
      · intro t' e
        simp only [Option.some.injEq] at e
        subst e
        exact fun x hx => (isFragmentChar_iff x).mp (takeWhile_all x hx)
      · subst hc
        simp only [optText]
        rw [List.append_assoc, List.takeWhile_append_dropWhile]
        rfl
    · exact ⟨none, by simp, by simp [optText], by simp⟩

theorem parse_sound (r : NetworkReference) (s : Bytes) (h : (parse_network_reference r s).2 ≠ 0) :
    ∃ p : RefParts, p.Valid ∧ s.take (parse_network_reference r s).2 = p.text ∧
      (parse_network_reference r s).2 ≤ s.length ∧ (parse_network_reference r s).1 = store r p := by
  unfold parse_network_reference at h ⊢
  split at h
  · simp at h
  rename_i r1 s1 h1
  simp only [h1]
  split at h
  · simp at h
  rename_i r2 s2 h2
  simp only [h2]
  clear h
  obtain ⟨b, host, hh1, hh2, rfl, rfl⟩ := parse_host_sound h1
  obtain ⟨port, hp1, rfl, rfl⟩ := parse_port_sound h2
  obtain ⟨path, ha1, ha2, ha3⟩ := parse_path_sound _ s2
  rw [ha3]
  generalize hs3 : (parse_path _ s2).2 = s3 at *
  obtain ⟨query, hq1, hq2, hq3⟩ := parse_query_sound _ s3
  rw [hq3]
  generalize hs4 : (parse_query _ s3).2 = s4 at *
  obtain ⟨fragment, hf1, hf2, hf3⟩ := parse_fragment_sound _ s4
  rw [hf3]
  generalize hs5 : (parse_fragment _ s4).2 = s5 at *
  refine ⟨⟨b, host, port, path, query, fragment⟩, ⟨hh1, hh2, hp1, ha1, hq1, hf1⟩, ?_, by omega, ?_⟩
  · rw [ha2, hq2, hf2]
    simp only [RefParts.text]
    generalize (if b = true then b! "[" ++ host ++ b! "]" else host) = A
    simp only [← List.append_assoc]
    rw [List.length_append, Nat.add_sub_cancel, List.take_left]
  · simp only [store]

/-! ### Completeness -/

/-- The text after the reference cannot continue it. -/
def Terminated (rest : Bytes) : Prop := ∀ c, rest.head? = some c → c ∉ fragmentChars

theorem chars_sub : ∀ c : Byte, (isDigit c = true → c ∈ fragmentChars) ∧ (c ∈ hostChars → c ∈ fragmentChars) ∧ (c ∈ pathChars → c ∈ fragmentChars) ∧
    (c ∈ queryChars → c ∈ fragmentChars) := forall_byte (by decide +kernel)

theorem head_optText {delim : Byte} {o : Option Bytes} {rest : Bytes} {c : Byte}
    (h : (optText [delim] o ++ rest).head? = some c) : c = delim ∨ rest.head? = some c := by
  cases o with
  | none => exact Or.inr (by simpa [optText] using h)
  | some t => exact Or.inl (by simpa [optText] using h.symm)

theorem parse_fragment_complete (r : NetworkReference) (o : Option Bytes) (rest : Bytes)
    (h : ∀ t, o = some t → ∀ c ∈ t, c ∈ fragmentChars) (hr : Terminated rest) :
    parse_fragment r (optText (b! "#") o ++ rest)
      = ({ r with fragment := o.getD r.fragment }, rest) := by
  cases o with
  | none =>
    simp only [optText, List.nil_append]
    unfold parse_fragment
    match rest, hr with
    | [], _ => rfl
    | c :: t, hr =>
      have : c ≠ chr '#' := by rintro rfl; exact hr _ rfl (by decide)
      simp [this]
  | some t =>
    obtain ⟨e1, e2⟩ := scan (p := isFragmentChar) (l := t) (rest := rest) (fun c hc => (isFragmentChar_iff c).mpr (h t rfl c hc))
      (fun c hc => by have := hr c hc; rw [← isFragmentChar_iff] at this; simpa using this)
    have : optText (b! "#") (some t) ++ rest = chr '#' :: (t ++ rest) := rfl
    rw [this]
    simp only [parse_fragment, if_true, e1, e2, Option.getD_some]

theorem parse_query_complete (r : NetworkReference) (o : Option Bytes) (rest : Bytes)
    (h : ∀ t, o = some t → ∀ c ∈ t, c ∈ queryChars) (hr : ∀ c, rest.head? = some c → c ∉ queryChars) :
    parse_query r (optText (b! "?") o ++ rest)
      = ({ r with query := o.getD r.query }, rest) := by
  cases o with
  | none =>
    simp only [optText, List.nil_append]
    unfold parse_query
    match rest, hr with
    | [], _ => rfl
    | c :: t, hr =>
      have : c ≠ chr '?' := by rintro rfl; exact hr _ rfl (by decide)
      simp [this]
  | some t =>
    obtain ⟨e1, e2⟩ := scan (p := isQueryChar) (l := t) (rest := rest) (fun c hc => (isQueryChar_iff c).mpr (h t rfl c hc))
      (fun c hc => by have := hr c hc; rw [← isQueryChar_iff] at this; simpa using this)
    have : optText (b! "?") (some t) ++ rest = chr '?' :: (t ++ rest) := rfl
    rw [this]
    simp only [parse_query, if_true, e1, e2, Option.getD_some]

theorem parse_path_complete (r : NetworkReference) (o : Option Bytes) (rest : Bytes)
    (h : ∀ t, o = some t → (∃ t', t = b! "/" ++ t') ∧ ∀ c ∈ t, c ∈ pathChars) (hr : ∀ c, rest.head? = some c → c ∉ pathChars) :
    parse_path r (optText [] o ++ rest)
      = ({ r with path := o.getD r.path }, rest) := by
  cases o with
  | none =>
    simp only [optText, List.nil_append]
    unfold parse_path
    match rest, hr with
    | [], _ => rfl
    | c :: t, hr =>
      have : c ≠ chr '/' := by rintro rfl; exact hr _ rfl (by decide)
      simp [this]
  | some t =>
    obtain ⟨⟨t', rfl⟩, h2⟩ := h t rfl
    obtain ⟨e1, e2⟩ := scan (p := isPathChar) (l := b! "/" ++ t') (rest := rest) (fun c hc => (isPathChar_iff c).mpr (h2 c hc))
      (fun c hc => by have := hr c hc; rw [← isPathChar_iff] at this; simpa using this)
    have : optText [] (some (b! "/" ++ t')) ++ rest = chr '/' :: (t' ++ rest) := rfl
    rw [this]
    have e : b! "/" ++ t' ++ rest = chr '/' :: (t' ++ rest) := rfl
    rw [e] at e1 e2
    simp only [parse_path, if_true, e1, e2, Option.getD_some]

theorem parse_port_complete (r : NetworkReference) (o : Option (Bytes × Nat)) (rest : Bytes)
    (h : ∀ t n, o = some (t, n) → t ≠ [] ∧ DecNum t n ∧ n ≤ 65535)
    (hr : ∀ c, rest.head? = some c → isDigit c = false ∧ c ≠ chr ':') :
    parse_port r (optText (b! ":") (o.map Prod.fst) ++ rest)
      = some ({ r with port := (o.map Prod.fst).getD r.port
                       port_num := (o.map Prod.snd).getD r.port_num }, rest) := by
  cases o with
  | none =>
    simp only [optText, List.nil_append, Option.map_none]
    unfold parse_port
    match rest, hr with
    | [], _ => rfl
    | c :: t, hr => simp [(hr c rfl).2]
  | some tn =>
    obtain ⟨t, n⟩ := tn
    obtain ⟨h1, h2, h3⟩ := h t n rfl
    obtain ⟨e1, e2⟩ := scan (p := isDigit) (l := t) (rest := rest) (decNum_digits h2) (fun c hc => (hr c hc).1)
    have : optText (b! ":") (Option.map Prod.fst (some (t, n))) ++ rest = chr ':' :: (t ++ rest) := rfl
    rw [this]
    simp only [parse_port, if_true, e1, e2, if_neg h1]
    rw [port_value_eq _ _ (by omega), accum_decNum h2, if_pos h3]
    simp only [Option.getD_some, Option.map_some]

theorem parse_host_complete (r : NetworkReference) (b : Bool) (host rest : Bytes) (hne : host ≠ [])
    (h : ∀ c ∈ host, c ∈ (if b then host6Chars else hostChars))
    (hr : ∀ c, rest.head? = some c → c ∉ hostChars) :
    parse_host r ((if b then b! "[" ++ host ++ b! "]" else host) ++ rest)
      = some ({ r with host := host, is_ipv6 := b || r.is_ipv6 }, rest) := by
  cases b with
  | true =>
    obtain ⟨e1, e2⟩ := scan (p := isHost6Char) (l := host) (rest := chr ']' :: rest)
      (fun c hc => (isHost6Char_iff c).mpr (by simpa using h c hc))
      (fun c hc => by simp at hc; subst hc; decide)
    have : (if (true : Bool) then b! "[" ++ host ++ b! "]" else host) ++ rest = chr '[' :: (host ++ chr ']' :: rest) := by
      have e1 : chr '[' = (0x5B : Byte) := rfl
      have e2 : chr ']' = (0x5D : Byte) := rfl
      simp [e1, e2]
    rw [this]
    simp only [parse_host, if_true, e1, e2, if_neg hne, ne_eq, not_true, if_false, Bool.true_or]
  | false =>
    obtain ⟨e1, e2⟩ := scan (p := isHostChar) (l := host) (rest := rest)
      (fun c hc => (isHostChar_iff c).mpr (by simpa using h c hc))
      (fun c hc => by have := hr c hc; rw [← isHostChar_iff] at this; simpa using this)
    simp only [Bool.false_eq_true, if_false, Bool.false_or]
    match host, hne, h, e1, e2 with
    | a :: t, hne, h, e1, e2 =>
      have ha : a ≠ chr '[' := by
        rintro rfl
        have := h (chr '[') (by simp)
        revert this; decide
      rw [List.cons_append] at *
      simp only [parse_host, if_neg ha, e1, e2, if_neg hne]

theorem parse_complete (r : NetworkReference) (p : RefParts) (hv : p.Valid) (rest : Bytes) (hr : Terminated rest) :
    parse_network_reference r (p.text ++ rest) = (store r p, p.text.length) := by
  have hf : ∀ c, (optText (b! "#") p.fragment ++ rest).head? = some c → c = chr '#' ∨ rest.head? = some c :=
    fun c hc => head_optText hc
  have hq : ∀ c, (optText (b! "?") p.query ++ (optText (b! "#") p.fragment ++ rest)).head? = some c →
      c = chr '?' ∨ c = chr '#' ∨ rest.head? = some c := fun c hc => (head_optText hc).imp_right (hf c)
  have ha : ∀ c, (optText [] p.path ++ (optText (b! "?") p.query ++ (optText (b! "#") p.fragment ++ rest))).head? = some c →
      c = chr '/' ∨ c = chr '?' ∨ c = chr '#' ∨ rest.head? = some c := by
    intro c hc
    cases hp : p.path with
    | none => rw [hp] at hc; exact Or.inr (hq c hc)
    | some t =>
      obtain ⟨⟨t', rfl⟩, _⟩ := hv.path_chars t hp
      rw [hp] at hc
      left
      simp only [optText, List.nil_append, List.cons_append, List.head?_cons, Option.some.injEq] at hc
      exact hc.symm
  have hport : ∀ c, (optText (b! ":") (p.port.map Prod.fst) ++ (optText [] p.path ++ (optText (b! "?") p.query ++
      (optText (b! "#") p.fragment ++ rest)))).head? = some c →
      c = chr ':' ∨ c = chr '/' ∨ c = chr '?' ∨ c = chr '#' ∨ rest.head? = some c :=
    fun c hc => (head_optText hc).imp_right (ha c)
  unfold parse_network_reference
  have e : p.text ++ rest = (if p.bracketed then b! "[" ++ p.host ++ b! "]" else p.host) ++
      (optText (b! ":") (p.port.map Prod.fst) ++ (optText [] p.path ++ (optText (b! "?") p.query ++
      (optText (b! "#") p.fragment ++ rest)))) := by
    simp only [RefParts.text, List.append_assoc]
  have e1 := parse_host_complete r p.bracketed p.host _ hv.host_nonempty hv.host_chars (fun c hc => by
    rcases hport c hc with rfl | rfl | rfl | rfl | h
    · decide
    · decide
    · decide
    · decide
    · exact fun hm => hr c h ((chars_sub c).2.1 hm))
  rw [← e] at e1
  simp only [e1]
  have e2 := parse_port_complete { r with host := p.host, is_ipv6 := p.bracketed || r.is_ipv6 } p.port _ hv.port_num (fun c hc => by
    rcases ha c hc with rfl | rfl | rfl | h
    · decide
    · decide
    · decide
    · refine ⟨?_, ?_⟩
      · cases hd : isDigit c with
        | false => rfl
        | true => exact absurd ((chars_sub c).1 hd) (hr c h)
      · rintro rfl; exact hr _ h (by decide))
  simp only [e2]
  rw [parse_path_complete _ p.path _ hv.path_chars (fun c hc => by
    rcases hq c hc with rfl | rfl | h
    · decide
    · decide
    · exact fun hm => hr c h ((chars_sub c).2.2.1 hm))]
  simp only
  rw [parse_query_complete _ p.query _ hv.query_chars (fun c hc => by
    rcases hf c hc with rfl | h
    · decide
    · exact fun hm => hr c h ((chars_sub c).2.2.2 hm))]
  simp only
  rw [parse_fragment_complete _ p.fragment _ hv.fragment_chars hr]
  simp only [List.length_append, Nat.add_sub_cancel, store]

end Verif.Uri
