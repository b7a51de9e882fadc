import Verif.Model.Http
import Verif.Spec.Http
import Verif.Proofs.Uri
import Verif.Proofs.NetRef
/-! # Proofs about HTTP text -/
namespace Verif.Http
open Verif.Spec

/-! ### Field names -/

theorem canonicalize_char_iff : ∀ c : Byte, (canonicalize_char c).isSome = true ↔ c ∈ fieldNameChars :=
  forall_byte (by decide +kernel)

theorem canonicalize_char_lower : ∀ c : Byte, c ∈ fieldNameChars → canonicalize_char c = some (ascii_lower c) :=
  forall_byte (by decide +kernel)

theorem canonicalize_eq (s : Bytes) :
    canonicalize s = if ∀ c ∈ s, c ∈ fieldNameChars then some (s.map ascii_lower) else none := by
  induction s with
  | nil => rfl
  | cons c s ih =>
    unfold canonicalize
    by_cases hc : c ∈ fieldNameChars
    · rw [canonicalize_char_lower c hc, ih]
      by_cases hs : ∀ c ∈ s, c ∈ fieldNameChars
      · rw [if_pos hs, if_pos (by simpa using ⟨hc, hs⟩)]; rfl
      · rw [if_neg hs, if_neg (by simp only [List.mem_cons, forall_eq_or_imp]; exact fun h => hs h.2)]
    · have : canonicalize_char c = none := by
        cases h : canonicalize_char c with
        | none => rfl
        | some x => exact absurd ((canonicalize_char_iff c).1 (by rw [h]; rfl)) hc
      rw [this, if_neg (by simp only [List.mem_cons, forall_eq_or_imp]; exact fun h => hc h.1)]

theorem lower_cases : ∀ c : Byte, ((∃ i : Fin 26, c = UInt8.ofNat (0x41 + i.val) ∧ ascii_lower c = UInt8.ofNat (0x61 + i.val))
    ∧ ascii_lower c ≠ c) ∨ ascii_lower c = c ∧ ∀ i : Fin 26, c ≠ UInt8.ofNat (0x41 + i.val) :=
  forall_byte (by decide +kernel)

theorem lower_pair (u l : Byte) (h : CasePair u l) : ascii_lower u = l ∧ ascii_lower l = l := by
  obtain ⟨i, hi, rfl, rfl⟩ := h
  have key : ∀ i : Fin 26, ascii_lower (UInt8.ofNat (0x41 + i.val)) = UInt8.ofNat (0x61 + i.val) ∧
    ascii_lower (UInt8.ofNat (0x61 + i.val)) = UInt8.ofNat (0x61 + i.val) := by decide
  exact key ⟨i, hi⟩

theorem casePair_iff (a b : Byte) : ascii_lower a = ascii_lower b ↔ (a = b ∨ CasePair a b ∨ CasePair b a) := by
  constructor
  · intro h
    rcases lower_cases a with ⟨⟨i, h1, h2⟩, _⟩ | ⟨h1, _⟩
    · rcases lower_cases b with ⟨⟨j, h3, h4⟩, _⟩ | ⟨h3, _⟩
      · left
        have key : ∀ i j : Fin 26, UInt8.ofNat (0x61 + i.val) = UInt8.ofNat (0x61 + j.val) → i = j := by decide
        have := key i j (by rw [← h2, ← h4, h])
        rw [h1, h3, this]
      · exact .inr (.inl ⟨i, i.isLt, h1, by rw [← h3, ← h, h2]⟩)
    · rcases lower_cases b with ⟨⟨j, h3, h4⟩, _⟩ | ⟨h3, _⟩
      · exact .inr (.inr ⟨j, j.isLt, h3, by rw [← h1, h, h4]⟩)
      · exact .inl (by rw [← h1, h, h3])
  · rintro (rfl | h | h)
    · rfl
    · have := lower_pair _ _ h; rw [this.1, this.2]
    · have := lower_pair _ _ h; rw [this.1, this.2]

theorem sameButCase_iff (a b : Bytes) : SameButCase a b ↔ a.map ascii_lower = b.map ascii_lower := by
  constructor
  · intro h
    induction h with
    | nil => rfl
    | cons h _ ih => simp only [List.map_cons, ih, (casePair_iff _ _).2 h]
  · intro h
    induction a generalizing b with
    | nil => cases b with
      | nil => exact .nil
      | cons _ _ => simp at h
    | cons x a ih => cases b with
      | nil => simp at h
      | cons y b =>
        simp only [List.map_cons, List.cons.injEq] at h
        exact .cons ((casePair_iff _ _).1 h.1) (ih b h.2)

theorem lower_mem : ∀ c : Byte, c ∈ fieldNameChars → ascii_lower c ∈ fieldNameChars ∧ ascii_lower (ascii_lower c) = ascii_lower c :=
  forall_byte (by decide +kernel)

/-! ### Query strings -/

theorem plain_iff : ∀ c : Byte, PlainQueryChar c ↔
    (bad_query_char c = false ∧ ¬ c = chr '&' ∧ ¬ c = chr '%' ∧ ¬ c = chr '+') := by
  unfold PlainQueryChar
  exact forall_byte (by decide +kernel)

theorem not_bad : bad_query_char (chr '%') = false ∧ bad_query_char (chr '+') = false ∧ bad_query_char (chr '&') = false ∧
    bad_query_char (chr '=') = false := by decide

/-- One step at a plain character that is not the first equals sign. -/
theorem scan_plain (c : Byte) (t m : Bytes) (nl : Option Nat) (h : PlainQueryChar c) (h' : ¬ (c = chr '=' ∧ nl = none)) :
    scan (c :: t) m nl = scan t (m ++ [c]) nl := by
  obtain ⟨h1, h2, h3, h4⟩ := (plain_iff c).1 h
  conv => lhs; unfold scan
  simp only [h1, Bool.false_eq_true, if_false, if_neg h2, if_neg h3, if_neg h4, if_neg h']

theorem scan_space (t m : Bytes) (nl : Option Nat) : scan (chr '+' :: t) m nl = scan t (m ++ [chr ' ']) nl := by
  conv => lhs; unfold scan
  simp only [not_bad.2.1, Bool.false_eq_true, if_false, show ¬ chr '+' = chr '&' by decide, show ¬ chr '+' = chr '%' by decide, if_true]

theorem scan_escape (a b : Byte) (x y : Nat) (t m : Bytes) (nl : Option Nat) (ha : HexDigit a x) (hb : HexDigit b y) :
    scan (chr '%' :: a :: b :: t) m nl = scan t (m ++ [UInt8.ofNat (16 * x + y)]) nl := by
  conv => lhs; unfold scan
  simp only [not_bad.1, Bool.false_eq_true, if_false, show ¬ chr '%' = chr '&' by decide, if_true,
    (Uri.hexval_iff _ _).2 ha, (Uri.hexval_iff _ _).2 hb, Uri.ofNat_shl_or x y (Uri.hexDigit_lt hb)]

theorem scan_equals (t m : Bytes) : scan (chr '=' :: t) m none = scan t m (some m.length) := by
  conv => lhs; unfold scan
  simp only [not_bad.2.2.2, Bool.false_eq_true, if_false, show ¬ chr '=' = chr '&' by decide, show ¬ chr '=' = chr '%' by decide,
    show ¬ chr '=' = chr '+' by decide, if_true, and_self]

theorem scan_amp (t m : Bytes) (nl : Option Nat) : scan (chr '&' :: t) m nl = some (m, nl, chr '&' :: t) := by
  conv => lhs; unfold scan
  simp only [not_bad.2.2.1, Bool.false_eq_true, if_false, if_true]

theorem scan_name {s d : Bytes} (h : QueryDecodes s d) (hs : chr '=' ∉ s) (rest m : Bytes) :
    scan (s ++ rest) m none = scan rest (m ++ d) none := by
  induction h generalizing m with
  | nil => simp
  | plain hc _ ih =>
    simp only [List.mem_cons, not_or] at hs
    rw [List.cons_append, scan_plain _ _ _ _ hc (fun h => hs.1 h.1.symm), ih hs.2]; simp
  | space _ ih =>
    simp only [List.mem_cons, not_or] at hs
    rw [List.cons_append, scan_space, ih hs.2]; simp
  | escape ha hb _ ih =>
    simp only [List.mem_cons, not_or] at hs
    rw [List.cons_append, List.cons_append, List.cons_append, scan_escape _ _ _ _ _ _ _ ha hb, ih hs.2.2.2]; simp

theorem scan_value {s d : Bytes} (h : QueryDecodes s d) (rest m : Bytes) (n : Nat) :
    scan (s ++ rest) m (some n) = scan rest (m ++ d) (some n) := by
  induction h generalizing m with
  | nil => simp
  | plain hc _ ih => rw [List.cons_append, scan_plain _ _ _ _ hc (by simp), ih]; simp
  | space _ ih => rw [List.cons_append, scan_space, ih]; simp
  | escape ha hb _ ih =>
    rw [List.cons_append, List.cons_append, List.cons_append, scan_escape _ _ _ _ _ _ _ ha hb, ih]; simp

/-- What follows an element: nothing, or a separator. -/
def AtEnd (rest : Bytes) : Prop := rest = [] ∨ ∃ t, rest = chr '&' :: t

theorem scan_end (rest m : Bytes) (nl : Option Nat) (h : AtEnd rest) : scan rest m nl = some (m, nl, rest) := by
  rcases h with rfl | ⟨t, rfl⟩
  · rfl
  · exact scan_amp t m nl

/-- What `element_at` stores, given the element's name and value. -/
def QueryParser.took (q : QueryParser) (x : Bytes × Option Bytes) (pos : Nat) : QueryParser :=
  { q with hpos := .at pos, name := x.1, value := x.2 }

theorem element_ok {e : Bytes} {x : Bytes × Option Bytes} (h : QueryElement e x) (q : QueryParser) (pre rest : Bytes)
    (hq : q.hstr = pre ++ (e ++ rest)) (hr : AtEnd rest) : q.element_at pre.length = (q.took x (pre ++ e).length, true) := by
  unfold QueryParser.element_at
  rw [hq, List.drop_left]
  have hl : (pre ++ (e ++ rest)).length - rest.length = (pre ++ e).length := by simp only [List.length_append]; omega
  cases h with
  | name h1 h2 =>
    rw [scan_name h2 h1, scan_end _ _ _ hr]
    simp only [hl, QueryParser.took, List.nil_append, hq]
  | @pair s n t v h1 h2 h3 =>
    rw [List.append_assoc, scan_name h2 h1, List.cons_append, scan_equals, scan_value h3, scan_end _ _ _ hr]
    simp only [List.nil_append, List.take_left, List.drop_left, QueryParser.took]
    rw [← hl, hq]; simp only [List.append_assoc, List.cons_append]

/-- The converse: what a successful scan has seen. -/
theorem scan_sound (s m : Bytes) (nl : Option Nat) (text : Bytes) (nl' : Option Nat) (rest : Bytes)
    (h : scan s m nl = some (text, nl', rest)) : ∃ e, s = e ++ rest ∧ chr '&' ∉ e ∧ AtEnd rest ∧
      ((∃ n, nl = some n ∧ nl' = some n ∧ ∃ d, QueryDecodes e d ∧ text = m ++ d)
      ∨ (nl = none ∧ nl' = none ∧ chr '=' ∉ e ∧ ∃ d, QueryDecodes e d ∧ text = m ++ d)
      ∨ (nl = none ∧ ∃ e1 e2 d1 d2, e = e1 ++ chr '=' :: e2 ∧ chr '=' ∉ e1 ∧ QueryDecodes e1 d1 ∧ QueryDecodes e2 d2 ∧
          nl' = some (m ++ d1).length ∧ text = m ++ d1 ++ d2)) := by
  fun_induction scan s m nl with
  | case1 m nl =>
    simp only [Option.some.injEq, Prod.mk.injEq] at h
    obtain ⟨rfl, rfl, rfl⟩ := h
    refine ⟨[], rfl, by simp, .inl rfl, ?_⟩
    cases nl with
    | none => exact .inr (.inl ⟨rfl, rfl, by simp, [], .nil, by simp⟩)
    | some n => exact .inl ⟨n, rfl, rfl, [], .nil, by simp⟩
  | case2 => simp at h
  | case3 t m nl hb =>
    simp only [Option.some.injEq, Prod.mk.injEq] at h
    obtain ⟨rfl, rfl, rfl⟩ := h
    refine ⟨[], rfl, by simp, .inr ⟨t, rfl⟩, ?_⟩
    cases nl with
    | none => exact .inr (.inl ⟨rfl, rfl, by simp, [], .nil, by simp⟩)
    | some n => exact .inl ⟨n, rfl, rfl, [], .nil, by simp⟩
  | case4 m nl a b t' x y hy hx _ _ ih =>
    obtain ⟨e, he, h1, h2, h3⟩ := ih h
    have ha := (Uri.hexval_iff _ _).1 hx
    have hb := (Uri.hexval_iff _ _).1 hy
    have hne : ∀ {c : Byte} {v : Nat}, HexDigit c v → ¬ chr '&' = c ∧ ¬ chr '=' = c := by
      intro c v hc
      have : Uri.hexval c = some v := (Uri.hexval_iff _ _).2 hc
      refine ⟨?_, ?_⟩ <;> (rintro rfl; simp [Uri.hexval, chr] at this)
    rw [Uri.ofNat_shl_or x y (Uri.hexDigit_lt hb)] at h3
    refine ⟨chr '%' :: a :: b :: e, by rw [he]; rfl, ?_, h2, ?_⟩
    · simp only [List.mem_cons, not_or]; exact ⟨by decide, (hne ha).1, (hne hb).1, h1⟩
    · rcases h3 with ⟨n, r1, r2, d, r3, r4⟩ | ⟨r1, r2, r0, d, r3, r4⟩ | ⟨r1, e1, e2, d1, d2, r2, r3, r4, r5, r6, r7⟩
      · exact .inl ⟨n, r1, r2, _, .escape ha hb r3, by rw [r4]; simp⟩
      · refine .inr (.inl ⟨r1, r2, ?_, _, .escape ha hb r3, by rw [r4]; simp⟩)
        simp only [List.mem_cons, not_or]; exact ⟨by decide, (hne ha).2, (hne hb).2, r0⟩
      · refine .inr (.inr ⟨r1, chr '%' :: a :: b :: e1, e2, _, d2, by rw [r2]; rfl, ?_, .escape ha hb r4, r5, by rw [r6]; simp, by rw [r7]; simp⟩)
        simp only [List.mem_cons, not_or]; exact ⟨by decide, (hne ha).2, (hne hb).2, r3⟩
  | case5 => simp at h
  | case6 => simp at h
  | case7 m nl t hb h1 h2 ih =>
    obtain ⟨e, he, h1, h2, h3⟩ := ih h
    refine ⟨chr '+' :: e, by rw [he]; rfl, ?_, h2, ?_⟩
    · simp only [List.mem_cons, not_or]; exact ⟨by decide, h1⟩
    · rcases h3 with ⟨n, r1, r2, d, r3, r4⟩ | ⟨r1, r2, r0, d, r3, r4⟩ | ⟨r1, e1, e2, d1, d2, r2, r3, r4, r5, r6, r7⟩
      · exact .inl ⟨n, r1, r2, _, .space r3, by rw [r4]; simp⟩
      · refine .inr (.inl ⟨r1, r2, ?_, _, .space r3, by rw [r4]; simp⟩)
        simp only [List.mem_cons, not_or]; exact ⟨by decide, r0⟩
      · refine .inr (.inr ⟨r1, chr '+' :: e1, e2, _, d2, by rw [r2]; rfl, ?_, .space r4, r5, by rw [r6]; simp, by rw [r7]; simp⟩)
        simp only [List.mem_cons, not_or]; exact ⟨by decide, r3⟩
  | case8 m nl c t hb h1 h2 h3 h4 ih =>
    obtain ⟨rfl, rfl⟩ := h4
    obtain ⟨e, he, h5, h6, h7⟩ := ih h
    refine ⟨chr '=' :: e, by rw [he]; rfl, ?_, h6, ?_⟩
    · simp only [List.mem_cons, not_or]; exact ⟨by decide, h5⟩
    · rcases h7 with ⟨n, r1, r2, d, r3, r4⟩ | ⟨r1, _⟩ | ⟨r1, _⟩
      · cases r1
        exact .inr (.inr ⟨rfl, [], e, [], d, rfl, by simp, .nil, r3, by simpa using r2, by simpa using r4⟩)
      · simp at r1
      · simp at r1
  | case9 c t m nl hb h1 h2 h3 h4 ih =>
    obtain ⟨e, he, h5, h6, h7⟩ := ih h
    have hp : PlainQueryChar c := (plain_iff c).2 ⟨by simpa using hb, h1, h2, h3⟩
    refine ⟨c :: e, by rw [he]; rfl, ?_, h6, ?_⟩
    · simp only [List.mem_cons, not_or]; exact ⟨fun h => h1 h.symm, h5⟩
    · rcases h7 with ⟨n, r1, r2, d, r3, r4⟩ | ⟨r1, r2, r0, d, r3, r4⟩ | ⟨r1, e1, e2, d1, d2, r2, r3, r4, r5, r6, r7⟩
      · exact .inl ⟨n, r1, r2, _, .plain hp r3, by rw [r4]; simp⟩
      · refine .inr (.inl ⟨r1, r2, ?_, _, .plain hp r3, by rw [r4]; simp⟩)
        simp only [List.mem_cons, not_or]; exact ⟨fun h => h4 ⟨h.symm, r1⟩, r0⟩
      · refine .inr (.inr ⟨r1, c :: e1, e2, _, d2, by rw [r2]; rfl, ?_, .plain hp r4, r5, by rw [r6]; simp, by rw [r7]; simp⟩)
        simp only [List.mem_cons, not_or]; exact ⟨fun h => h4 ⟨h.symm, r1⟩, r3⟩

theorem amp_split {a b rest rest' : Bytes} (ha : chr '&' ∉ a) (hb : chr '&' ∉ b) (hr : AtEnd rest) (hr' : AtEnd rest')
    (h : a ++ rest = b ++ rest') : a = b := by
  rcases List.append_eq_append_iff.1 h with ⟨c, rfl, h2⟩ | ⟨c, rfl, h2⟩
  · cases c with
    | nil => simp
    | cons x c =>
      rcases hr with rfl | ⟨t, rfl⟩
      · simp at h2
      · simp only [List.cons_append, List.cons.injEq] at h2
        exact absurd (by simp [h2.1]) hb
  · cases c with
    | nil => simp
    | cons x c =>
      rcases hr' with rfl | ⟨t, rfl⟩
      · simp at h2
      · simp only [List.cons_append, List.cons.injEq] at h2
        exact absurd (by simp [h2.1]) ha

theorem element_bad {e : Bytes} (h : ¬ ∃ x, QueryElement e x) (he : chr '&' ∉ e) (q : QueryParser) (pre rest : Bytes)
    (hq : q.hstr = pre ++ (e ++ rest)) (hr : AtEnd rest) : q.element_at pre.length = ({ q with hpos := .error }, false) := by
  unfold QueryParser.element_at
  rw [hq, List.drop_left]
  cases hs : scan (e ++ rest) [] none with
  | none => rfl
  | some r =>
    obtain ⟨text, nl, rest'⟩ := r
    exfalso
    obtain ⟨e', r1, r2, r3, r4⟩ := scan_sound _ _ _ _ _ _ hs
    obtain rfl := amp_split he r2 hr r3 r1
    rcases r4 with ⟨n, r5, _⟩ | ⟨_, _, r5, d, r6, _⟩ | ⟨_, e1, e2, d1, d2, r5, r6, r7, r8, _⟩
    · simp at r5
    · exact h ⟨_, .name r5 r6⟩
    · exact h ⟨_, by rw [r5]; exact .pair r6 r7 r8⟩

/-- The parser is about to read an element that begins behind the text `pre`. -/
def QueryParser.Before (q : QueryParser) (pre rest : Bytes) : Prop :=
  q.hstr = pre ++ rest ∧ (q.hpos = .before ∧ pre = [] ∨ ∃ n, q.hpos = .at n ∧ pre.length = n + 1)

theorem next_of_before {q : QueryParser} {pre rest : Bytes} (h : q.Before pre rest) : q.next_element = q.element_at pre.length := by
  obtain ⟨h1, ⟨h2, rfl⟩ | ⟨n, h2, h3⟩⟩ := h
  · unfold QueryParser.next_element; rw [h2]; rfl
  · unfold QueryParser.next_element; rw [h2]
    have : ¬ n ≥ q.hstr.length := by rw [h1, List.length_append]; omega
    simp only [if_neg this, h3]

theorem elements_ok {es : List Bytes} {xs : List (Bytes × Option Bytes)} (h : Each QueryElement es xs) (hne : es ≠ []) (tail : Bytes)
    (ht : AtEnd tail) (fuel : Nat) : ∀ (q : QueryParser) (pre : Bytes), q.Before pre (joinWith (chr '&') es ++ tail) →
    ∃ q' : QueryParser, q'.hstr = q.hstr ∧ q'.hpos = .at (pre ++ joinWith (chr '&') es).length ∧
      q.elements (fuel + es.length) = (xs ++ (q'.elements fuel).1, (q'.elements fuel).2) := by
  induction h with
  | nil => exact absurd rfl hne
  | @cons e x es xs he hes ih =>
    intro q pre hq
    have hn := next_of_before hq
    cases hes with
    | nil =>
      refine ⟨q.took x (pre ++ e).length, rfl, rfl, ?_⟩
      rw [element_ok he q pre tail hq.1 ht] at hn
      simp only [List.length_cons, List.length_nil, QueryParser.elements, hn]
      rfl
    | @cons e2 x2 es2 xs2 he2 hes2 =>
      have hrest : joinWith (chr '&') (e :: e2 :: es2) ++ tail = e ++ (chr '&' :: (joinWith (chr '&') (e2 :: es2) ++ tail)) := by
        simp [joinWith]
      rw [hrest] at hq
      rw [element_ok he q pre _ hq.1 (.inr ⟨_, rfl⟩)] at hn
      obtain ⟨q', r1, r2, r3⟩ := ih (by simp) (q.took x (pre ++ e).length) (pre ++ e ++ [chr '&'])
        ⟨by rw [QueryParser.took, hq.1]; simp, .inr ⟨_, rfl, by simp; omega⟩⟩
      refine ⟨q', r1, by rw [r2]; simp [joinWith], ?_⟩
      rw [List.length_cons, ← Nat.add_assoc]
      simp only [QueryParser.elements, hn, r3]
      rfl

theorem elements_end (q : QueryParser) (h : q.hpos = .at q.hstr.length) (fuel : Nat) : q.elements fuel = ([], q) := by
  cases fuel with
  | zero => rfl
  | succ n => simp [QueryParser.elements, QueryParser.next_element, h]

theorem elements_error (q : QueryParser) {pre e rest : Bytes} (h : q.Before pre (e ++ rest)) (hb : ¬ ∃ x, QueryElement e x)
    (he : chr '&' ∉ e) (hr : AtEnd rest) (fuel : Nat) : q.elements (fuel + 1) = ([], { q with hpos := .error }) := by
  simp only [QueryParser.elements, next_of_before h, element_bad hb he q pre rest h.1 hr]

theorem atEnd_join (es : List Bytes) : ∃ tail, AtEnd tail ∧ ∀ e, joinWith (chr '&') (e :: es) = e ++ tail := by
  cases es with
  | nil => exact ⟨[], .inl rfl, fun e => by simp [joinWith]⟩
  | cons e2 es => exact ⟨_, .inr ⟨joinWith (chr '&') (e2 :: es), rfl⟩, fun e => rfl⟩

theorem join_append (es1 es2 : List Bytes) (h1 : es1 ≠ []) (h2 : es2 ≠ []) :
    joinWith (chr '&') (es1 ++ es2) = joinWith (chr '&') es1 ++ chr '&' :: joinWith (chr '&') es2 := by
  induction es1 with
  | nil => exact absurd rfl h1
  | cons e es1 ih =>
    cases es1 with
    | nil => cases es2 with
      | nil => exact absurd rfl h2
      | cons e2 es2 => rfl
    | cons e' es1 => simp only [List.cons_append, joinWith, List.append_assoc]; rw [← List.cons_append, ih (by simp)]

/-! ### The encoder -/

theorem query_char_decodes (safe : Byte → Bool) (hs : ∀ c, safe c = true → PlainQueryChar c) (c : Byte) {s d : Bytes} (h : QueryDecodes s d) :
    QueryDecodes (query_char safe c ++ s) (c :: d) := by
  unfold query_char
  by_cases h1 : safe c = true
  · rw [if_pos h1]; exact .plain (hs c h1) h
  · rw [if_neg h1]
    by_cases h2 : c = chr ' '
    · subst h2; exact .space h
    · rw [if_neg (by simpa using h2)]
      have hn := Uri.nibbles c
      have a := (Uri.hexval_iff _ _).1 (Uri.hexdigit_spec ⟨_, hn.1⟩)
      have b := (Uri.hexval_iff _ _).1 (Uri.hexdigit_spec ⟨_, hn.2.1⟩)
      have := QueryDecodes.escape a b h
      have h3 : (c :: d) = (UInt8.ofNat (16 * ((c >>> 4) &&& 0x0F).toNat + (c &&& 0x0F).toNat) :: d) := by rw [hn.2.2]
      rw [h3]
      exact this

theorem safe_plain : ∀ c : Byte, (isSafeKeyChar c = true → PlainQueryChar c ∧ ¬ c = chr '=') ∧ (isSafeValueChar c = true → PlainQueryChar c) := by
  unfold PlainQueryChar
  exact forall_byte (by decide +kernel)

theorem encode_decodes (safe : Byte → Bool) (hs : ∀ c, safe c = true → PlainQueryChar c) (s : Bytes) :
    QueryDecodes (s.flatMap (query_char safe)) s := by
  induction s with
  | nil => exact .nil
  | cons c s ih => exact query_char_decodes safe hs c ih

theorem key_no_equals : ∀ c : Byte, chr '=' ∉ query_char isSafeKeyChar c := forall_byte (by decide +kernel)

theorem encode_element (k v : Bytes) : QueryElement (k.flatMap (query_char isSafeKeyChar) ++ chr '=' :: v.flatMap (query_char isSafeValueChar))
    (k, some v) := by
  refine .pair ?_ (encode_decodes _ (fun c h => ((safe_plain c).1 h).1) k) (encode_decodes _ (fun c h => (safe_plain c).2 h) v)
  simp only [List.mem_flatMap, not_exists, not_and]
  exact fun c _ => key_no_equals c

theorem append_query_eq (raw k v : Bytes) : encode_and_append_query raw k v =
    if raw = [] then k.flatMap (query_char isSafeKeyChar) ++ chr '=' :: v.flatMap (query_char isSafeValueChar)
    else raw ++ chr '&' :: (k.flatMap (query_char isSafeKeyChar) ++ chr '=' :: v.flatMap (query_char isSafeValueChar)) := by
  unfold encode_and_append_query
  cases raw with
  | nil => simp
  | cons a t => simp

theorem encode_all (ps : List (Bytes × Bytes)) : ∀ (es : List Bytes) (xs : List (Bytes × Option Bytes)), Each QueryElement es xs →
    (es ≠ [] → joinWith (chr '&') es ≠ []) →
    ∃ es', Each QueryElement es' (xs ++ ps.map (fun p => (p.1, some p.2))) ∧ es'.length = es.length + ps.length ∧
      ps.foldl (fun raw p => encode_and_append_query raw p.1 p.2) (joinWith (chr '&') es) = joinWith (chr '&') es' := by
  have each_snoc : ∀ {es : List Bytes} {xs : List (Bytes × Option Bytes)} {e x}, Each QueryElement es xs → QueryElement e x →
      Each QueryElement (es ++ [e]) (xs ++ [x]) := by
    intro es xs e x h hx
    induction h with
    | nil => exact .cons hx .nil
    | cons h _ ih => exact .cons h ih
  induction ps with
  | nil => intro es xs h _; exact ⟨es, by simpa using h, by simp, rfl⟩
  | cons p ps ih =>
    intro es xs h hj
    have hx := encode_element p.1 p.2
    generalize hg : p.1.flatMap (query_char isSafeKeyChar) ++ chr '=' :: p.2.flatMap (query_char isSafeValueChar) = e at hx
    have hene : e ≠ [] := by rw [← hg]; simp
    have hstep : encode_and_append_query (joinWith (chr '&') es) p.1 p.2 = joinWith (chr '&') (es ++ [e]) := by
      rw [append_query_eq, hg]
      by_cases hes : es = []
      · subst hes; simp [joinWith]
      · rw [if_neg (hj hes), join_append es [e] hes (by simp)]; rfl
    obtain ⟨es', r1, r2, r3⟩ := ih (es ++ [e]) (xs ++ [(p.1, some p.2)]) (each_snoc h hx) (by
      intro _
      rw [← hstep, append_query_eq, hg]
      split
      · exact hene
      · simp)
    refine ⟨es', by simpa using r1, by rw [r2]; simp; omega, ?_⟩
    rw [List.foldl_cons, hstep, r3]

end Verif.Http
