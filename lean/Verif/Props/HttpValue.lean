import Verif.Proofs.HeaderFuel
/-!
# HTTP header values and header lists (C21, C59, C60)

The number and date routines come from libraries; they are the parameter `L`, and each theorem says what it needs of them.
-/
namespace Verif.Props
open Verif.Spec Verif.Http

/-- A small instance of the library, for the examples: decimal numbers, no fractions, no dates. -/
def plainLib : Lib where
  D := Unit
  parse_I s := if s ≠ [] ∧ s.all (fun c => c ≥ chr '0' && c ≤ chr '9') then some (s.foldl (fun n c => n * 10 + ((c.toNat - 48 : Nat) : Int)) 0) else none
  parse_D _ := none
  print_I i := decimal i.toNat
  print_D _ := []
  dt_parse _ := none
  dt_print _ := []

theorem drop_blanks {p : Byte → Bool} {a m : Bytes} (ha : ∀ c ∈ a, p c = true) (hm : ∀ c t, m = c :: t → p c = false) : (a ++ m).dropWhile p = m := by
  induction a with
  | nil =>
    cases m with
    | nil => rfl
    | cons c t => simp [hm c t rfl]
  | cons x t ih => simp [ha x (by simp), ih (fun c hc => ha c (by simp [hc]))]

theorem trim_core {s m : Bytes} (h : Core s m) : trim s = m := by
  obtain ⟨a, b, rfl, hb, h1, h2⟩ := h
  have hbl : ∀ c : Byte, c = chr ' ' ∨ c = chr '\t' → (c == chr ' ' || c == chr '\t') = true := by
    rintro c (rfl | rfl) <;> decide
  have hnb : ∀ c : Byte, c ≠ chr ' ' ∧ c ≠ chr '\t' → (c == chr ' ' || c == chr '\t') = false := by
    rintro c ⟨x, y⟩
    simp [x, y]
  unfold trim
  dsimp only
  by_cases hm : m = []
  · subst hm
    have : ∀ l : Bytes, (∀ c ∈ l, c = chr ' ' ∨ c = chr '\t') → l.dropWhile (fun c => c == chr ' ' || c == chr '\t') = [] := by
      intro l hl
      have := drop_blanks (p := fun c : Byte => c == chr ' ' || c == chr '\t') (a := l) (m := []) (fun c hc => hbl c (hl c hc)) (by intro c t e; cases e)
      rwa [List.append_nil] at this
    rw [List.append_nil, this (a ++ b) hb]
    rfl
  · rw [List.append_assoc, drop_blanks (fun c hc => hbl c (hb c (by simp [hc])))]
    · rw [List.reverse_append, drop_blanks (fun c hc => hbl c (hb c (by simpa using Or.inr hc)))]
      · exact List.reverse_reverse m
      · intro c t e
        exact hnb c (h2 c t.reverse (by rw [← List.reverse_reverse m, e]; simp))
    · intro c t e
      cases m with
      | nil => exact absurd rfl hm
      | cons x m =>
        simp only [List.cons_append, List.cons.injEq] at e
        exact hnb c (e.1 ▸ h1 x m rfl)

/-- C21, what a text means.  A text is taken for a number if it is one, and for a date if the whole of it is one; blanks in front and at the end do not count. -/
theorem C21_meaning (L : Lib) (s m : Bytes) (h : Core s m) :
    (Value.ofString L s).str = s ∧ (Value.ofString L s).is_null = false ∧
      (m = [] → (Value.ofString L s).int = none ∧ (Value.ofString L s).dbl = none ∧ (Value.ofString L s).dt = none) ∧
      (m ≠ [] → (Value.ofString L s).int = L.parse_I m ∧ (Value.ofString L s).dbl = L.parse_D m ∧
        ∀ t, (Value.ofString L s).dt = some t ↔ L.dt_parse m = some (t, m.length)) := by
  unfold Value.ofString
  dsimp only
  rw [trim_core h]
  by_cases hm : m = []
  · rw [if_pos hm]
    exact ⟨rfl, rfl, fun _ => ⟨rfl, rfl, rfl⟩, fun e => absurd hm e⟩
  · rw [if_neg hm]
    refine ⟨rfl, rfl, fun e => absurd e hm, fun _ => ⟨rfl, rfl, fun t => ?_⟩⟩
    dsimp only
    cases hd : L.dt_parse m with
    | none => simp
    | some x =>
      obtain ⟨t', n⟩ := x
      dsimp only
      by_cases hn : n = m.length
      · simp [hn]
      · simp [hn]

/-- A library that takes `D` at the front of a text for a date. -/
def dateLib : Lib := { plainLib with dt_parse := fun s => if s.head? = some (chr 'D') then some (5, 1) else none }
example : (Value.ofString dateLib (b! " D\t")).dt = some 5 ∧ (Value.ofString dateLib (b! "Dx")).dt = none := by decide
theorem core_example : Core (b! " D\t") (b! "D") :=
  ⟨b! " ", b! "\t", rfl, by decide, by rintro c t ⟨⟩; decide, by intro c t e; cases t with | nil => cases e; decide | cons _ t => cases t <;> cases e⟩

/-- The text is not a number or a date. -/
def PlainText (L : Lib) (s : Bytes) : Prop := ∃ m, Core s m ∧ (m = [] ∨ L.parse_I m = none ∧ L.parse_D m = none ∧ ∀ t, L.dt_parse m ≠ some (t, m.length))

/-- C21, dates: a text in front of which there is a date is read as this date, and nothing but the date is taken; unless it is a quoted string. -/
theorem C21_date (L : Lib) (str : Bytes) (t : Int) (n : Nat) (h : L.dt_parse str = some (t, n)) (hn : n ≠ 0) (hs : str ≠ []) (hq : str.head? ≠ some (chr '"')) :
    (parse_value L str).2 = n ∧ (parse_value L str).1.str = str.take n ∧ (parse_value L str).1.dt = some t ∧ (parse_value L str).1.int = none ∧ (parse_value L str).1.dbl = none := by
  have : parse_value L str = ({ str := str.take n, dt := some t }, n) := by
    unfold parse_value parse_datetime_partial
    rw [if_neg hs, if_neg hq]
    simp only [h, hn, if_false, ne_eq, not_true_eq_false, not_false_eq_true, if_true]
  rw [this]
  exact ⟨rfl, rfl, rfl, rfl, rfl⟩

/-- Non-vacuity: a library which knows one date. -/
example : (parse_value { plainLib with dt_parse := fun s => if s.take 6 = b! "May 17" then some (12, 6) else none } (b! "May 17, x")).2 = 6 ∧
    (parse_value { plainLib with dt_parse := fun s => if s.take 6 = b! "May 17" then some (12, 6) else none } (b! "May 17, x")).1.dt = some 12 := by decide +kernel

theorem plain_none {L : Lib} {s : Bytes} (h : PlainText L s) : (Value.ofString L s).int = none ∧ (Value.ofString L s).dbl = none ∧ (Value.ofString L s).dt = none := by
  obtain ⟨m, h1, h2⟩ := h
  obtain ⟨-, -, h3, h4⟩ := C21_meaning L s m h1
  by_cases hm : m = []
  · exact h3 hm
  · obtain ⟨e1, e2, e3⟩ := h4 hm
    rcases h2 with h2 | ⟨h2, h5, h6⟩
    · exact absurd h2 hm
    · refine ⟨e1.trans h2, e2.trans h5, ?_⟩
      cases hd : (Value.ofString L s).dt with
      | none => rfl
      | some t => exact absurd ((e3 t).mp hd) (h6 t)

theorem print_plain {L : Lib} {s : Bytes} (h0 : PlainText L s) : (Value.ofString L s).print =
    if s.any is_ctl_or_sep then chr '"' :: quote_loop s false ++ [chr '"'] else s := by
  have h := plain_none h0
  have hs : (Value.ofString L s).str = s := by unfold Value.ofString; dsimp only; split <;> rfl
  unfold Value.print
  rw [h.1, h.2.1, h.2.2]
  dsimp only
  rw [hs]

theorem any_token (s : Bytes) : s.any is_ctl_or_sep = false ↔ ∀ c ∈ s, TokenChar c := by
  rw [← Bool.not_eq_true, List.any_eq_true]
  constructor
  · intro h c hc
    exact (sep_iff c).1 (by cases hx : is_ctl_or_sep c with | false => rfl | true => exact absurd ⟨c, hc, hx⟩ h)
  · rintro h ⟨c, hc, hx⟩
    rw [(sep_iff c).2 (h c hc)] at hx
    exact nomatch hx

/-- C21, first part: a text made of token characters is printed as it is and read back by the token parser, whatever
separator follows.  `_partial`: texts that look like numbers or dates are excluded (see `C21_violated`). -/
theorem C21_token_partial (L : Lib) (s rest : Bytes) (hs : s ≠ []) (hp : PlainText L s) (ht : ∀ c ∈ s, TokenChar c)
    (hr : ∀ c, rest.head? = some c → ¬ TokenChar c) :
    (Value.ofString L s).print = s ∧ parse_token_partial L ((Value.ofString L s).print ++ rest) = (Value.ofString L s, s.length) := by
  have h1 : (Value.ofString L s).print = s := by rw [print_plain hp, (any_token s).2 ht]; simp
  refine ⟨h1, ?_⟩
  rw [h1]
  unfold parse_token_partial
  have : (s ++ rest).takeWhile (fun c => !is_ctl_or_sep c) = s :=
    takeWhile_append_stop (fun c hc => by rw [(sep_iff c).2 (ht c hc)]; rfl)
      (fun c hc => by
        cases hx : is_ctl_or_sep c with
        | true => rfl
        | false => exact absurd ((sep_iff c).1 hx) (hr c hc))
  rw [this]
  simp only [if_neg hs]

example : PlainText plainLib (b! "gzip") ∧ (∀ c ∈ b! "gzip", TokenChar c) ∧
    (parse_token_partial plainLib ((Value.ofString plainLib (b! "gzip")).print ++ b! ", br")).1.str = b! "gzip" :=
  ⟨⟨b! "gzip", ⟨[], [], rfl, by simp, by rintro c t ⟨⟩; decide, by intro c t e; obtain ⟨-, rfl⟩ := List.append_inj' (s₁ := b! "gzi") (t₁ := [chr 'p']) e rfl |>.imp id List.cons.inj |>.imp id And.left; decide⟩, .inr ⟨by decide, rfl, by intro t e; cases e⟩⟩, (any_token _).1 (by decide), by decide⟩

/-- C21, second part: any other text is printed as a quoted string, and the quoted-string parser gives back the text with each run
of control and space characters replaced by one space; the characters behind the closing quote are not touched. -/
theorem C21_quoted_partial (L : Lib) (s rest : Bytes) (hp : PlainText L s) (hq : ∃ c ∈ s, ¬ TokenChar c) :
    ∃ t, Collapsed s t ∧ parse_quoted_string_partial L ((Value.ofString L s).print ++ rest) =
      (Value.ofString L t, (Value.ofString L s).print.length) := by
  obtain ⟨⟨t, h1, h2⟩, -⟩ := quote_collapsed s
  refine ⟨t, h1, ?_⟩
  have ha : s.any is_ctl_or_sep = true := by
    cases hx : s.any is_ctl_or_sep with
    | true => rfl
    | false =>
      obtain ⟨c, hc, hn⟩ := hq
      exact absurd ((any_token s).1 hx c hc) hn
  rw [print_plain hp, ha, if_pos rfl]
  have hql := quoted_text h2 rest []
  unfold parse_quoted_string_partial
  simp only [List.cons_append, List.append_assoc, List.nil_append, ne_eq, true_and]
  rw [if_pos (by simp), hql]
  simp only [List.nil_append, List.length_cons, List.length_append, List.length_nil, Prod.mk.injEq, true_and]
  omega

/-- The text that comes back is determined by `Collapsed`, and it is the text itself when that has no control characters and no
double spaces. -/
theorem C21_exact (s : Bytes) : (∀ t t', Collapsed s t → Collapsed s t' → t = t') ∧ (Carriable s → Collapsed s s) :=
  ⟨fun _ _ h h' => collapsed_unique h h', carriable_collapsed s⟩

/-- A carriable text comes back exactly. -/
theorem C21_quoted_exact_partial (L : Lib) (s rest : Bytes) (hp : PlainText L s) (hq : ∃ c ∈ s, ¬ TokenChar c) (hc : Carriable s) :
    parse_quoted_string_partial L ((Value.ofString L s).print ++ rest) = (Value.ofString L s, (Value.ofString L s).print.length) := by
  obtain ⟨t, h1, h2⟩ := C21_quoted_partial L s rest hp hq
  rw [(C21_exact s).1 t s h1 ((C21_exact s).2 hc)] at h2
  exact h2

example : (Value.ofString plainLib (b! "say \"hi\" to C:\\")).print = b! "\"say \\\"hi\\\" to C:\\\\\"" ∧
    (parse_quoted_string_partial plainLib ((Value.ofString plainLib (b! "say \"hi\" to C:\\")).print)).1.str = b! "say \"hi\" to C:\\" := by decide

/-- What is printed, of either kind, is a value that may follow `=` in a header list, and means the collapsed text. -/
theorem C21_in_header (L : Lib) (s : Bytes) (hp : PlainText L s) : ∃ t, Collapsed s t ∧ ValueText (Value.ofString L s).print t := by
  rw [print_plain hp]
  cases hx : s.any is_ctl_or_sep with
  | false =>
    have ht := (any_token s).1 hx
    refine ⟨s, ?_, ?_⟩
    · refine carriable_collapsed s ⟨fun c hc h => absurd h (ht c hc).1, ?_⟩
      rintro ⟨a, b, e⟩
      exact (ht (chr ' ') (by rw [e]; simp)).1 (by unfold CtlOrSpace; decide)
    · simp only [Bool.false_eq_true, if_false]
      refine .bare (fun c hc => ⟨(ht c hc).1, ?_, ?_⟩) ?_
      · rintro rfl; exact (ht _ hc).2 (by decide)
      · rintro rfl; exact (ht _ hc).2 (by decide)
      · intro h; exact (ht _ (List.mem_of_mem_head? h)).2 (by decide)
  | true =>
    obtain ⟨⟨t, h1, h2⟩, -⟩ := quote_collapsed s
    refine ⟨t, h1, ?_⟩
    rw [if_pos rfl]
    refine .quoted h2 ?_
    have : ∀ (s : Bytes) (b : Bool), (0 : Byte) ∉ quote_loop s b := by
      intro s
      induction s with
      | nil => simp [quote_loop]
      | cons c s ih =>
        intro b
        unfold quote_loop
        split
        · rename_i h
          simp only [List.mem_cons, not_or]
          exact ⟨by decide, by rcases h with rfl | rfl <;> decide, ih false⟩
        · split
          · split
            · exact ih true
            · simp only [List.mem_cons, not_or]; exact ⟨by decide, ih true⟩
          · rename_i h
            simp only [List.mem_cons, not_or]
            exact ⟨fun e => h (by rw [← e]; decide), ih false⟩
    exact this s false

/-- Integers survive, when the library reads back the digits that it prints and does not take them for a date. -/
theorem C21_integer (L : Lib) (i : Int) (rest : Bytes) (h1 : L.parse_I (L.print_I i) = some i) (h2 : L.print_I i ≠ [])
    (h3 : ∀ c ∈ L.print_I i, TokenChar c) (hr : ∀ c, rest.head? = some c → ¬ TokenChar c) :
    (parse_token_partial L ((Value.ofInt L i).print ++ rest)).1.int = some i ∧
      (parse_token_partial L ((Value.ofInt L i).print ++ rest)).2 = (Value.ofInt L i).print.length := by
  have hpr : (Value.ofInt L i).print = L.print_I i := rfl
  rw [hpr]
  have htok : (L.print_I i ++ rest).takeWhile (fun c => !is_ctl_or_sep c) = L.print_I i :=
    takeWhile_append_stop (fun c hc => by rw [(sep_iff c).2 (h3 c hc)]; rfl)
      (fun c hc => by
        cases hx : is_ctl_or_sep c with
        | true => rfl
        | false => exact absurd ((sep_iff c).1 hx) (hr c hc))
  have htrim : trim (L.print_I i) = L.print_I i := by
    have hb : ∀ c ∈ L.print_I i, is_blank c = false := fun c hc => (token_facts c ((sep_iff c).2 (h3 c hc))).1
    have hd : ∀ l : Bytes, (∀ c ∈ l, is_blank c = false) → l.dropWhile (fun c => c == chr ' ' || c == chr '\t') = l := by
      intro l hl
      cases l with
      | nil => rfl
      | cons x l =>
        have hx : (x == chr ' ' || x == chr '\t') = false := hl x (by simp)
        simp [hx]
    unfold trim
    dsimp only
    rw [hd _ hb, hd _ (fun c hc => hb c (List.mem_reverse.1 hc)), List.reverse_reverse]
  unfold parse_token_partial
  rw [htok]
  simp only [if_neg h2]
  unfold Value.ofString
  rw [htrim]
  simp only [if_neg h2, h1, and_self]

example : (parse_token_partial plainLib ((Value.ofInt plainLib 1048576).print ++ b! ";x")).1.int = some 1048576 := by decide +kernel

/-- The full claim fails for a text that looks like a number: it is printed as that number, so `007` comes back as `7`. -/
theorem C21_violated : ∃ (L : Lib) (s : Bytes), (∀ c ∈ s, TokenChar c) ∧ Carriable s ∧
    (parse_token_partial L (Value.ofString L s).print).1.str ≠ s := by
  refine ⟨plainLib, b! "007", (any_token _).1 (by decide), ⟨?_, ?_⟩, by decide +kernel⟩
  · intro c hc h; revert c; unfold CtlOrSpace; decide
  · rintro ⟨a, b, e⟩
    have : chr ' ' ∈ b! "007" := by rw [e]; simp
    exact absurd this (by decide)

/-! ### Header lists -/

/-- The value that the user sees for an attribute: nothing without `=`, otherwise the text. -/
def seen (L : Lib) (a : AttrText) : Bytes × Value L :=
  (a.name, match a.value with | none => {} | some (_, _, _, text) => Value.ofString L text)

theorem seen_report (L : Lib) (a : AttrText) : report L a = seen L a := by
  unfold report seen AttrText.meaning
  cases h : a.value with
  | none => rfl
  | some x => obtain ⟨b1, b2, raw, text⟩ := x; rfl

/-- C59: a well-formed header list — elements separated by `,`, each a list of attributes `name` or `name=value` separated by
`;`, with blanks anywhere between, values bare or quoted — is reported exactly: each element with all its attributes in order, and the
loops end at the end of the text, without error.  Values that begin a date are excluded: the parser prefers the date. -/
theorem C59_header_list (L : Lib) (es : List (List AttrText)) (hne : es ≠ [])
    (hes : ∀ e ∈ es, e ≠ [] ∧ ∀ a ∈ e, a.Valid ∧ ∀ b1 b2 raw text, a.value = some (b1, b2, raw, text) → NoDate L raw)
    (fuel : Nat) (hf : es.length < fuel) :
    ∃ q', (HeaderParser.reload L (headerText es)).all fuel = (es.map (fun e => e.map (seen L)), q') ∧ q'.hpos = .at (headerText es).length := by
  obtain ⟨q', h1, h2⟩ := header_ok (L := L) es hne hes fuel hf
  refine ⟨q', ?_, h2⟩
  rw [h1]
  simp only [funext (seen_report L)]

/-- `gzip;q=0.5, "…"`-style input. -/
def demoList : List (List AttrText) :=
  [[⟨[], b! "form-data", none, []⟩, ⟨b! " ", b! "name", some (b! " ", [], b! "\"a\\\"b\"", b! "a\"b"), []⟩],
   [⟨b! "  ", b! "gzip", none, b! " "⟩, ⟨[], b! "q", some ([], [], b! "0.5", b! "0.5"), []⟩]]

example : headerText demoList = b! "form-data; name =\"a\\\"b\",  gzip ;q=0.5" := by decide

example : ((HeaderParser.reload plainLib (headerText demoList)).all 5).1.map (fun e => e.map (fun a => (a.1, a.2.str))) =
    [[(b! "form-data", []), (b! "name", b! "a\"b")], [(b! "gzip", []), (b! "q", b! "0.5")]] := by decide +kernel

example : ∀ a ∈ demoList.flatten, a.Valid ∧ ∀ b1 b2 raw text, a.value = some (b1, b2, raw, text) → NoDate plainLib raw := by
  have tok : ∀ s : Bytes, s.any is_ctl_or_sep = false → ∀ c ∈ s, TokenChar c := fun s h => (any_token s).1 h
  have bl : ∀ s : Bytes, s.all is_blank = true → Blanks s := fun s h c hc => (blank_iff c).1 (List.all_eq_true.1 h c hc)
  have nd : ∀ raw, NoDate plainLib raw := fun raw rest h r e => nomatch e
  intro a ha
  simp only [demoList, List.flatten_cons, List.flatten_nil, List.append_nil, List.cons_append, List.nil_append, List.mem_cons, List.not_mem_nil, or_false] at ha
  rcases ha with rfl | rfl | rfl | rfl
  · exact ⟨⟨bl _ (by decide), bl _ (by decide), by decide, tok _ (by decide), nofun⟩, nofun⟩
  · refine ⟨⟨bl _ (by decide), bl _ (by decide), by decide, tok _ (by decide), ?_⟩, fun _ _ raw _ _ => nd raw⟩
    intro b1 b2 raw text e
    simp only [Option.some.injEq, Prod.mk.injEq] at e
    obtain ⟨rfl, rfl, rfl, rfl⟩ := e
    refine ⟨bl _ (by decide), bl _ (by decide), ?_⟩
    exact ValueText.quoted (w := b! "a\\\"b") (.plain (by decide) (by decide) (.pair (.plain (by decide) (by decide) .nil))) (by decide)
  · exact ⟨⟨bl _ (by decide), bl _ (by decide), by decide, tok _ (by decide), nofun⟩, nofun⟩
  · refine ⟨⟨bl _ (by decide), bl _ (by decide), by decide, tok _ (by decide), ?_⟩, fun _ _ raw _ _ => nd raw⟩
    intro b1 b2 raw text e
    simp only [Option.some.injEq, Prod.mk.injEq] at e
    obtain ⟨rfl, rfl, rfl, rfl⟩ := e
    refine ⟨bl _ (by decide), bl _ (by decide), .bare ?_ (by decide)⟩
    unfold CtlOrSpace; decide

/-- C60: on any text at all, the user's loops end: running them longer than the text has characters changes nothing. -/
theorem C60_terminates (L : Lib) (text : Bytes) (more : Nat) :
    (HeaderParser.reload L text).all (text.length + 2 + more) = (HeaderParser.reload L text).all (text.length + 2) :=
  all_stable _ _ _ (by show text.length + 1 < _; omega) (by show text.length + 1 < _; omega)

/-- Each successful call leaves less text to read, and the text itself is never changed. -/
theorem C60_progress (L : Lib) (q : HeaderParser L) :
    (q.next_attribute.1.hstr = q.hstr ∧ (q.next_attribute.2 = true → q.next_attribute.1.left < q.left)) ∧
    (q.next_element.1.hstr = q.hstr ∧ (q.next_element.2 = true → q.next_element.1.left < q.left)) :=
  ⟨⟨(next_attribute_left q).1, (next_attribute_left q).2.2⟩, ⟨(next_element_left q).1, (next_element_left q).2.2⟩⟩

/-- The loop inside `next_element()` is bounded by the text, too. -/
theorem C60_next_element (L : Lib) (q : HeaderParser L) (more : Nat) : q.next_element_fuel (q.hstr.length + 2 + more) = q.next_element :=
  next_element_stable _ _ _ (by have := left_le q; omega) (by have := left_le q; omega)

/-- After an error, every further call fails and changes nothing. -/
theorem C60_error (L : Lib) (q : HeaderParser L) (h : q.hpos = .error) : q.next_attribute = (q, false) ∧ q.next_element = (q, false) := by
  constructor
  · unfold HeaderParser.next_attribute; rw [h]
  · unfold HeaderParser.next_element HeaderParser.next_element_fuel; rw [h]

example : ((HeaderParser.reload plainLib (b! "a b")).all 10).2.hpos = .error := by decide +kernel
example : ((HeaderParser.reload plainLib (b! "a=1;;,,b")).all 10).1.map (fun e => e.map (·.1)) = [[b! "a"]] := by decide +kernel

end Verif.Props
