import Verif.Proofs.HttpValue
/-! # Proofs about the header parser -/
namespace Verif.Http
open Verif.Spec

theorem blank_iff : ∀ c : Byte, is_blank c = true ↔ (c = chr ' ' ∨ c = chr '\t') := forall_byte (by decide +kernel)

theorem token_facts : ∀ c : Byte, is_ctl_or_sep c = false → is_blank c = false ∧ ¬ c = chr ';' ∧ ¬ c = chr ',' ∧ c ≠ 0 :=
  forall_byte (by decide +kernel)

theorem bare_facts : ∀ c : Byte, (¬ CtlOrSpace c ∧ c ≠ chr ',' ∧ c ≠ chr ';') → is_ctl_or_unquoted_sep c = false ∧ is_blank c = false ∧ c ≠ 0 := by
  unfold CtlOrSpace
  exact forall_byte (by decide +kernel)

/-- What may follow an attribute. -/
def Sep (rest : Bytes) : Prop := rest = [] ∨ ∃ t, rest = chr ';' :: t ∨ rest = chr ',' :: t

/-- What may follow a value: blanks and then a separator. -/
theorem sep_head {rest : Bytes} (h : Sep rest) {c : Byte} (hc : rest.head? = some c) : c = chr ';' ∨ c = chr ',' := by
  rcases h with rfl | ⟨t, rfl | rfl⟩ <;> simp at hc <;> simp [← hc]

theorem blanks_sep_head {b rest : Bytes} (hb : Blanks b) (h : Sep rest) {c : Byte} (hc : (b ++ rest).head? = some c) :
    c = chr ' ' ∨ c = chr '\t' ∨ c = chr ';' ∨ c = chr ',' := by
  cases b with
  | nil => rcases sep_head h hc with h | h <;> simp [h]
  | cons x b => simp at hc; rcases hb c (by simp [hc]) with h | h <;> simp [h]

theorem drop_blanks {b rest : Bytes} (hb : Blanks b) (h : ∀ c, rest.head? = some c → is_blank c = false) :
    (b ++ rest).dropWhile is_blank = rest :=
  dropWhile_append_stop (fun c hc => (blank_iff c).2 (hb c hc)) h

theorem c_string_takeWhile (p : Byte → Bool) (h0 : p 0 = false) (s : Bytes) : (c_string s).takeWhile p = s.takeWhile p := by
  unfold c_string
  induction s with
  | nil => rfl
  | cons c s ih =>
    by_cases hc : c = 0
    · subst hc; simp [h0]
    · simp only [List.takeWhile_cons, ne_eq, hc, not_false_eq_true, decide_true, if_true]
      rw [ih]

theorem c_string_append {a b : Bytes} (h : (0 : Byte) ∉ a) : c_string (a ++ b) = a ++ c_string b := by
  unfold c_string
  induction a with
  | nil => rfl
  | cons x a ih =>
    simp only [List.mem_cons, not_or] at h
    simp only [List.cons_append, List.takeWhile_cons, ne_eq, Ne.symm h.1, not_false_eq_true, decide_true, if_true, ih h.2]

/-- The value, with a blank, a separator or nothing behind it, is not the beginning of a date. -/
def NoDate (L : Lib) (raw : Bytes) : Prop :=
  ∀ rest, (∀ c, rest.head? = some c → c = chr ' ' ∨ c = chr '\t' ∨ c = chr ';' ∨ c = chr ',') →
    ∀ r, L.dt_parse (raw ++ rest) = some r → r.2 = 0

theorem c_string_head {s : Bytes} {c : Byte} (h : (c_string s).head? = some c) : s.head? = some c := by
  cases s with
  | nil => simp [c_string] at h
  | cons y x =>
    simp only [c_string, List.takeWhile_cons] at h
    split at h
    · simpa using h
    · simp at h

theorem parse_value_text {L : Lib} {raw text : Bytes} (h : ValueText raw text) (hd : NoDate L raw) (b rest : Bytes) (hb : Blanks b) (hs : Sep rest) :
    let p := parse_value L (c_string (raw ++ (b ++ rest)))
    (if p.2 = 0 then Value.ofString L [] else p.1) = Value.ofString L text ∧ p.2 = raw.length := by
  have hstop : ∀ c, (b ++ rest).head? = some c → (!is_ctl_or_unquoted_sep c) = false := by
    intro c hc
    rcases blanks_sep_head hb hs hc with rfl | rfl | rfl | rfl <;> decide
  cases h with
  | @bare s h1 h2 =>
    have h0 : (0 : Byte) ∉ raw := fun h => absurd rfl (bare_facts 0 (h1 0 h)).2.2
    have htok : (c_string (raw ++ (b ++ rest))).takeWhile (fun c => !is_ctl_or_unquoted_sep c) = raw := by
      rw [c_string_takeWhile _ (by decide)]
      exact takeWhile_append_stop (fun c hc => by simp [(bare_facts c (h1 c hc)).1]) hstop
    have hdt : (parse_datetime_partial L (c_string (raw ++ (b ++ rest)))).2 = 0 := by
      rw [c_string_append h0]
      unfold parse_datetime_partial
      cases hp : L.dt_parse (raw ++ c_string (b ++ rest)) with
      | none => rfl
      | some r => simp [hd _ (fun c hc => blanks_sep_head hb hs (c_string_head hc)) r hp]
    have hhead : (c_string (raw ++ (b ++ rest))).head? ≠ some (chr '"') := by
      cases raw with
      | nil =>
        intro hc
        have : (b ++ rest).head? = some (chr '"') := by
          generalize hx : b ++ rest = x at hc ⊢
          cases x with
          | nil => simp [c_string] at hc
          | cons y x =>
            simp only [c_string, List.nil_append, List.takeWhile_cons] at hc
            split at hc
            · simpa using hc
            · simp at hc
        have h3 := blanks_sep_head hb hs this
        revert h3; decide
      | cons y raw =>
        rw [c_string_append h0]
        simpa using h2
    unfold parse_value
    by_cases he : c_string (raw ++ (b ++ rest)) = []
    · rw [if_pos he]
      have : raw = [] := by
        rw [c_string_append h0] at he
        exact (List.append_eq_nil_iff.1 he).1
      subst this
      simp
    · simp only [if_neg he, if_neg hhead, ne_eq, not_true_eq_false, if_false, hdt]
      unfold parse_unquoted_partial
      simp only [htok]
      by_cases hr : raw = []
      · simp [hr]
      · have : raw.length ≠ 0 := fun h => hr (List.length_eq_zero_iff.1 h)
        simp [hr]
  | @quoted w s hq h0 =>
    have e : c_string (chr '"' :: w ++ [chr '"'] ++ (b ++ rest)) = chr '"' :: (w ++ chr '"' :: c_string (b ++ rest)) := by
      have : (0 : Byte) ∉ chr '"' :: w ++ [chr '"'] := by
        simp only [List.cons_append, List.mem_cons, List.mem_append, List.not_mem_nil, or_false, not_or]
        exact ⟨by decide, h0, by decide⟩
      rw [c_string_append this]; simp
    rw [e]
    have hql := quoted_text hq (c_string (b ++ rest)) []
    have hp : parse_quoted_string_partial L (chr '"' :: (w ++ chr '"' :: c_string (b ++ rest))) = (Value.ofString L text, w.length + 2) := by
      unfold parse_quoted_string_partial
      simp only [ne_eq, true_and]
      rw [if_pos (by simp), hql]
      simp only [List.nil_append, List.length_cons, List.length_append, Prod.mk.injEq, true_and]
      omega
    unfold parse_value
    simp only [List.cons_ne_nil, if_false, List.head?_cons, if_true, hp, ne_eq]
    simp only [show ¬ (w.length + 2 = 0) by omega, not_false_eq_true, if_true, if_false]
    simp

theorem attribute_value_none {L : Lib} {b rest : Bytes} (hb : Blanks b) (hs : Sep rest) :
    attribute_value L (b ++ rest) = ({}, rest) := by
  have hstop : ∀ c, rest.head? = some c → is_blank c = false := by
    intro c hc; rcases sep_head hs hc with rfl | rfl <;> decide
  unfold attribute_value
  rw [drop_blanks hb hstop]
  rcases hs with rfl | ⟨t, rfl | rfl⟩
  · rfl
  · rfl
  · rfl

theorem raw_head {raw text : Bytes} (h : ValueText raw text) (hne : raw ≠ []) : ∀ c, raw.head? = some c → is_blank c = false := by
  intro c hc
  cases h with
  | bare h1 h2 => exact (bare_facts c (h1 c (List.mem_of_mem_head? hc))).2.1
  | quoted _ _ => simp at hc; subst hc; decide

theorem attribute_value_some {L : Lib} {b1 b2 raw text b rest : Bytes} (h : ValueText raw text) (hd : NoDate L raw) (h1 : Blanks b1) (h2 : Blanks b2)
    (hb : Blanks b) (hs : Sep rest) : ∃ b', Blanks b' ∧
    attribute_value L (b1 ++ chr '=' :: (b2 ++ raw) ++ (b ++ rest)) = (Value.ofString L text, b' ++ rest) := by
  have hstop : ∀ c, rest.head? = some c → is_blank c = false := by
    intro c hc; rcases sep_head hs hc with rfl | rfl <;> decide
  unfold attribute_value
  rw [List.append_assoc, List.cons_append, drop_blanks h1 (by intro c hc; simp at hc; subst hc; decide)]
  simp only [if_true]
  by_cases hr : raw = []
  · subst hr
    have he : (b2 ++ [] ++ (b ++ rest)).dropWhile is_blank = rest := by
      rw [List.append_nil, ← List.append_assoc]
      exact drop_blanks (fun c hc => by rcases List.mem_append.1 hc with h | h; exact h2 c h; exact hb c h) hstop
    have := parse_value_text h hd [] rest (by simp [Blanks]) hs
    simp only [List.nil_append] at this
    rw [he]
    refine ⟨[], by simp [Blanks], ?_⟩
    rw [this.1, this.2]; simp
  · have he : (b2 ++ raw ++ (b ++ rest)).dropWhile is_blank = raw ++ (b ++ rest) := by
      rw [List.append_assoc]
      refine drop_blanks h2 ?_
      intro c hc
      cases raw with
      | nil => exact absurd rfl hr
      | cons x raw => exact raw_head h hr c (by simpa using hc)
    have := parse_value_text h hd b rest hb hs
    rw [he, this.1, this.2]
    exact ⟨b, hb, by simp⟩

/-- The value the parser reports for the text of a value. -/
def valueOf (L : Lib) : Option Bytes → Value L
  | none => {}
  | some text => Value.ofString L text

/-- The byte returned for what follows. -/
theorem attribute_ok {L : Lib} (q : HeaderParser L) (a : AttrText) (ha : a.Valid)
    (hd : ∀ b1 b2 raw text, a.value = some (b1, b2, raw, text) → NoDate L raw) (pre rest : Bytes)
    (hq : q.hstr = pre ++ (a.written ++ rest)) (hs : Sep rest) :
    q.attribute_at pre.length = ({ q with hpos := .at (pre ++ a.written).length, name := a.name, value := valueOf L a.meaning.2 },
      some (match rest.head? with | none => 0 | some c => c)) := by
  have hstop : ∀ c, rest.head? = some c → is_blank c = false := by
    intro c hc; rcases sep_head hs hc with rfl | rfl <;> decide
  -- the part behind the name
  obtain ⟨mid, b', hmid, hb', hval, hmidhead⟩ : ∃ mid b', a.written = a.lead ++ (a.name ++ mid) ∧ Blanks b' ∧
      attribute_value L (mid ++ rest) = (valueOf L a.meaning.2, b' ++ rest) ∧
      ∀ c, (mid ++ rest).head? = some c → is_ctl_or_sep c = true := by
    cases hv : a.value with
    | none =>
      refine ⟨a.trail, [], by simp [AttrText.written, hv], by simp [Blanks], ?_, ?_⟩
      · rw [attribute_value_none ha.trail hs]; simp [AttrText.meaning, hv, valueOf]
      · intro c hc
        rcases blanks_sep_head ha.trail hs hc with rfl | rfl | rfl | rfl <;> decide
    | some v =>
      obtain ⟨b1, b2, raw, text⟩ := v
      obtain ⟨h1, h2, h3⟩ := ha.value b1 b2 raw text hv
      obtain ⟨b', hb', he⟩ := attribute_value_some (b := a.trail) (rest := rest) h3 (hd b1 b2 raw text hv) h1 h2 ha.trail hs
      refine ⟨b1 ++ chr '=' :: (b2 ++ raw) ++ a.trail, b', by simp [AttrText.written, hv], hb', ?_, ?_⟩
      · rw [List.append_assoc, he]; simp [AttrText.meaning, hv, valueOf]
      · intro c hc
        cases b1 with
        | nil => simp at hc; subst hc; decide
        | cons x b1 =>
          simp at hc
          rcases h1 c (by simp [hc]) with rfl | rfl <;> decide
  have hname : ∀ c ∈ a.name, is_ctl_or_sep c = false := fun c hc => (sep_iff c).2 (ha.name_chars c hc)
  obtain ⟨n0, nt, hn⟩ : ∃ n0 nt, a.name = n0 :: nt := by
    cases h : a.name with
    | nil => exact absurd h ha.name_ne
    | cons x t => exact ⟨x, t, rfl⟩
  have hn0 := token_facts n0 (hname n0 (by rw [hn]; simp))
  have hs1 : (q.hstr.drop pre.length).dropWhile is_blank = n0 :: (nt ++ (mid ++ rest)) := by
    rw [hq, List.drop_left, hmid, List.append_assoc, drop_blanks ha.lead]
    · rw [hn]; simp
    · intro c hc; rw [hn] at hc; simp at hc; rw [← hc]; exact hn0.1
  have htok : parse_token_partial L (c_string (n0 :: (nt ++ (mid ++ rest)))) = (Value.ofString L a.name, a.name.length) := by
    unfold parse_token_partial
    have : (c_string (n0 :: (nt ++ (mid ++ rest)))).takeWhile (fun c => !is_ctl_or_sep c) = a.name := by
      rw [c_string_takeWhile _ (by decide), show n0 :: (nt ++ (mid ++ rest)) = a.name ++ (mid ++ rest) by rw [hn]; simp]
      exact takeWhile_append_stop (fun c hc => by simp [hname c hc]) (fun c hc => by simp [hmidhead c hc])
    simp only [this, if_neg ha.name_ne]
  have hdrop : (n0 :: (nt ++ (mid ++ rest))).drop a.name.length = mid ++ rest := by
    rw [show n0 :: (nt ++ (mid ++ rest)) = a.name ++ (mid ++ rest) by rw [hn]; simp, List.drop_left]
  have hstr : (Value.ofString L a.name).str = a.name := by unfold Value.ofString; simp only; split <;> rfl
  have hnl : ¬ a.name.length = 0 := by rw [hn]; simp
  have hlen : q.hstr.length - rest.length = (pre ++ a.written).length := by
    rw [hq]; simp only [List.length_append]; omega
  unfold HeaderParser.attribute_at
  simp only [hs1, if_neg (show ¬ (n0 = chr ';' ∨ n0 = chr ',') from fun h => h.elim hn0.2.1 hn0.2.2.1), htok, if_neg hnl, hdrop, hval,
    drop_blanks hb' hstop, hstr]
  rcases hs with rfl | ⟨t, rfl | rfl⟩
  · simp only [List.head?_nil, Prod.mk.injEq, and_true]
    rw [← hlen]; simp
  · simp only [List.head?_cons, ne_eq, not_true_eq_false, false_and, if_false, hlen]
  · simp only [List.head?_cons, ne_eq, not_true_eq_false, and_false, if_false, hlen]

theorem element_flat (a : AttrText) (as : List AttrText) : elementText (a :: as) = a.written ++ as.flatMap (fun b => chr ';' :: b.written) := by
  induction as generalizing a with
  | nil => simp [elementText]
  | cons b as ih => simp only [elementText, ih, List.flatMap_cons, List.cons_append]

theorem header_flat_elements (e : List AttrText) (es : List (List AttrText)) :
    headerText (e :: es) = elementText e ++ es.flatMap (fun f => chr ',' :: elementText f) := by
  induction es generalizing e with
  | nil => simp [headerText]
  | cons f es ih => simp only [headerText, ih, List.flatMap_cons, List.cons_append]

/-- The attribute texts are valid and no value looks like a date. -/
def Plain (L : Lib) (a : AttrText) : Prop :=
  a.Valid ∧ ∀ b1 b2 raw text, a.value = some (b1, b2, raw, text) → NoDate L raw

/-- What is reported for an attribute. -/
def report (L : Lib) (a : AttrText) : Bytes × Value L := (a.name, valueOf L a.meaning.2)

theorem semi_sep (as : List AttrText) (rest : Bytes) (hr : Sep rest) : Sep (as.flatMap (fun b => chr ';' :: b.written) ++ rest) := by
  cases as with
  | nil => exact hr
  | cons b as => exact .inr ⟨_, .inl (by rw [List.flatMap_cons, List.cons_append, List.cons_append])⟩

theorem attributes_ok {L : Lib} (as : List AttrText) (has : ∀ a ∈ as, Plain L a) (rest : Bytes) (hr : rest = [] ∨ ∃ t, rest = chr ',' :: t) :
    ∀ (q : HeaderParser L) (pre : Bytes) (fuel : Nat), as.length < fuel → q.hpos = .at pre.length →
      q.hstr = pre ++ (as.flatMap (fun b => chr ';' :: b.written) ++ rest) →
      ∃ q', q.attributes fuel = (as.map (report L), q') ∧ q'.hstr = q.hstr ∧
        q'.hpos = .at (pre ++ as.flatMap (fun b => chr ';' :: b.written)).length := by
  have hsep : Sep rest := by rcases hr with rfl | ⟨t, rfl⟩; exact .inl rfl; exact .inr ⟨t, .inr rfl⟩
  induction as with
  | nil =>
    intro q pre fuel hf hp hq
    obtain ⟨f, rfl⟩ : ∃ f, fuel = f + 1 := ⟨fuel - 1, by simp at hf; omega⟩
    refine ⟨q, ?_, rfl, by simpa using hp⟩
    have hn : q.next_attribute = (q, false) := by
      unfold HeaderParser.next_attribute
      rw [hp]
      simp only [hq, List.flatMap_nil, List.nil_append]
      rcases hr with rfl | ⟨t, rfl⟩
      · simp
      · simp
    simp only [HeaderParser.attributes, hn, List.map_nil]
  | cons a as ih =>
    intro q pre fuel hf hp hq
    obtain ⟨f, rfl⟩ : ∃ f, fuel = f + 1 := ⟨fuel - 1, by simp at hf; omega⟩
    have ha := has a (by simp)
    have hq2 : q.hstr = (pre ++ [chr ';']) ++ (a.written ++ (as.flatMap (fun b => chr ';' :: b.written) ++ rest)) := by
      rw [hq]; simp
    have hat := attribute_ok q a ha.1 ha.2 (pre ++ [chr ';']) _ hq2 (semi_sep as rest hsep)
    rw [show (pre ++ [chr ';']).length = pre.length + 1 by simp] at hat
    have hn : q.next_attribute = ({ q with hpos := .at (pre ++ [chr ';'] ++ a.written).length, name := a.name, value := valueOf L a.meaning.2 }, true) := by
      unfold HeaderParser.next_attribute
      rw [hp]
      have hc : q.hstr[pre.length]? = some (chr ';') := by rw [hq2]; simp
      simp only [hc, if_neg (show ¬ chr ';' = chr ',' by decide), if_true, hat, Option.isSome_some]
    obtain ⟨q', r1, r2, r3⟩ := ih (fun x hx => has x (List.mem_cons_of_mem _ hx))
      { q with hpos := .at (pre ++ [chr ';'] ++ a.written).length, name := a.name, value := valueOf L a.meaning.2 }
      (pre ++ [chr ';'] ++ a.written) f (by simp at hf; omega) rfl (by rw [hq2]; simp)
    refine ⟨q', ?_, r2, by rw [r3]; simp⟩
    simp only [HeaderParser.attributes, hn, r1, List.map_cons, report]

theorem attributes_bound (as : List AttrText) (pre rest : Bytes) :
    as.length ≤ (pre ++ (as.flatMap (fun b => chr ';' :: b.written) ++ rest)).length := by
  have : as.length ≤ (as.flatMap (fun b => chr ';' :: b.written)).length := by
    induction as with
    | nil => simp
    | cons a as ih => simp only [List.flatMap_cons, List.length_cons, List.length_append]; omega
  simp only [List.length_append]; omega

theorem all_ok {L : Lib} (es : List (List AttrText)) (hes : ∀ e ∈ es, e ≠ [] ∧ ∀ a ∈ e, Plain L a) :
    ∀ (q : HeaderParser L) (pre : Bytes) (fuel : Nat), es.length < fuel → q.hpos = .at pre.length →
      q.hstr = pre ++ es.flatMap (fun f => chr ',' :: elementText f) →
      ∃ q', q.all fuel = (es.map (fun e => e.map (report L)), q') ∧ q'.hstr = q.hstr ∧ q'.hpos = .at q.hstr.length := by
  induction es with
  | nil =>
    intro q pre fuel hf hp hq
    obtain ⟨f, rfl⟩ : ∃ f, fuel = f + 1 := ⟨fuel - 1, by simp at hf; omega⟩
    refine ⟨q, ?_, rfl, by rw [hp, hq]; simp⟩
    have hn : q.next_element = (q, false) := by
      unfold HeaderParser.next_element HeaderParser.next_element_fuel
      rw [hp]
      have hc : q.hstr[pre.length]? = none := by rw [hq]; simp
      simp only [hc]
    simp only [HeaderParser.all, hn, List.map_nil]
  | cons e es ih =>
    intro q pre fuel hf hp hq
    obtain ⟨f, rfl⟩ : ∃ f, fuel = f + 1 := ⟨fuel - 1, by simp at hf; omega⟩
    obtain ⟨hne, hpl⟩ := hes e (by simp)
    cases e with
    | nil => exact absurd rfl hne
    | cons a as =>
      have ha := hpl a (by simp)
      have hrest : es.flatMap (fun f => chr ',' :: elementText f) = [] ∨ ∃ t, es.flatMap (fun f => chr ',' :: elementText f) = chr ',' :: t := by
        cases es with
        | nil => exact .inl rfl
        | cons g es => exact .inr ⟨_, by rw [List.flatMap_cons, List.cons_append]⟩
      generalize hR : es.flatMap (fun f => chr ',' :: elementText f) = R at hrest
      have hsep : Sep R := by rcases hrest with rfl | ⟨t, rfl⟩; exact .inl rfl; exact .inr ⟨t, .inr rfl⟩
      have hq2 : q.hstr = (pre ++ [chr ',']) ++ (a.written ++ (as.flatMap (fun b => chr ';' :: b.written) ++ R)) := by
        rw [hq, List.flatMap_cons, hR, element_flat]; simp
      have hat := attribute_ok q a ha.1 ha.2 (pre ++ [chr ',']) _ hq2 (semi_sep as R hsep)
      rw [show (pre ++ [chr ',']).length = pre.length + 1 by simp] at hat
      have hn : q.next_element = ({ q with hpos := .at (pre ++ [chr ','] ++ a.written).length, name := a.name, value := valueOf L a.meaning.2 }, true) := by
        unfold HeaderParser.next_element HeaderParser.next_element_fuel
        rw [hp]
        have hc : q.hstr[pre.length]? = some (chr ',') := by rw [hq2]; simp
        simp only [hc, if_true, hat, Option.isSome_some]
      have hq3 : q.hstr = (pre ++ [chr ','] ++ a.written) ++ (as.flatMap (fun b => chr ';' :: b.written) ++ R) := by rw [hq2]; simp
      obtain ⟨q1, r1, r2, r3⟩ := attributes_ok as (fun x hx => hpl x (List.mem_cons_of_mem _ hx)) R hrest
        { q with hpos := .at (pre ++ [chr ','] ++ a.written).length, name := a.name, value := valueOf L a.meaning.2 }
        (pre ++ [chr ','] ++ a.written) (q.hstr.length + 2) (by have := attributes_bound as (pre ++ [chr ','] ++ a.written) R; rw [hq3]; omega) rfl hq3
      obtain ⟨q2, s1, s2, s3⟩ := ih (fun x hx => hes x (List.mem_cons_of_mem _ hx)) q1 _ f (by simp at hf; omega) r3
        (by rw [r2, hq3, hR]; simp)
      refine ⟨q2, ?_, by rw [s2, r2], by rw [s3, r2]⟩
      simp only [HeaderParser.all, hn, r1, s1, List.map_cons, report]

/-- A whole header. -/
theorem header_ok {L : Lib} (es : List (List AttrText)) (hne : es ≠ []) (hes : ∀ e ∈ es, e ≠ [] ∧ ∀ a ∈ e, Plain L a) (fuel : Nat)
    (hf : es.length < fuel) : ∃ q', (HeaderParser.reload L (headerText es)).all fuel = (es.map (fun e => e.map (report L)), q') ∧
      q'.hpos = .at (headerText es).length := by
  cases es with
  | nil => exact absurd rfl hne
  | cons e es =>
    obtain ⟨f, rfl⟩ : ∃ f, fuel = f + 1 := ⟨fuel - 1, by simp at hf; omega⟩
    obtain ⟨hne, hpl⟩ := hes e (by simp)
    cases e with
    | nil => exact absurd rfl hne
    | cons a as =>
      have ha := hpl a (by simp)
      have hrest : es.flatMap (fun f => chr ',' :: elementText f) = [] ∨ ∃ t, es.flatMap (fun f => chr ',' :: elementText f) = chr ',' :: t := by
        cases es with
        | nil => exact .inl rfl
        | cons g es => exact .inr ⟨_, by rw [List.flatMap_cons, List.cons_append]⟩
      generalize hR : es.flatMap (fun f => chr ',' :: elementText f) = R at hrest
      have hsep : Sep R := by rcases hrest with rfl | ⟨t, rfl⟩; exact .inl rfl; exact .inr ⟨t, .inr rfl⟩
      generalize hqd : HeaderParser.reload L (headerText ((a :: as) :: es)) = q
      have hstr : q.hstr = headerText ((a :: as) :: es) := by rw [← hqd]; rfl
      have hpos : q.hpos = .before := by rw [← hqd]; rfl
      have hq2 : q.hstr = [] ++ (a.written ++ (as.flatMap (fun b => chr ';' :: b.written) ++ R)) := by
        rw [hstr, header_flat_elements, hR, element_flat]; simp
      have hat := attribute_ok q a ha.1 ha.2 [] _ hq2 (semi_sep as R hsep)
      have hn : q.next_element = ({ q with hpos := .at ([] ++ a.written).length, name := a.name, value := valueOf L a.meaning.2 }, true) := by
        unfold HeaderParser.next_element HeaderParser.next_element_fuel
        rw [hpos]
        simp only [List.length_nil] at hat
        simp only [hat, Option.isSome_some]
      have hq3 : q.hstr = ([] ++ a.written) ++ (as.flatMap (fun b => chr ';' :: b.written) ++ R) := by rw [hq2]; simp
      obtain ⟨q1, r1, r2, r3⟩ := attributes_ok as (fun x hx => hpl x (List.mem_cons_of_mem _ hx)) R hrest
        { q with hpos := .at ([] ++ a.written).length, name := a.name, value := valueOf L a.meaning.2 }
        ([] ++ a.written) (q.hstr.length + 2) (by have := attributes_bound as ([] ++ a.written) R; rw [hq3]; omega) rfl hq3
      obtain ⟨q2, s1, s2, s3⟩ := all_ok es (fun x hx => hes x (List.mem_cons_of_mem _ hx)) q1 _ f (by simp at hf; omega) r3
        (by rw [r2, hq3, hR]; simp)
      refine ⟨q2, ?_, by rw [s3, r2, ← hstr]⟩
      simp only [HeaderParser.all, hn, r1, s1, List.map_cons, report]

end Verif.Http
