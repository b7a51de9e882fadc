import Verif.Spec.Config
/-!
# The parser of configuration paths against the grammar
-/
namespace Verif.Config

variable {R : Type}

theorem isBlank_iff (c : Byte) : isBlank c = true ↔ c = chr ' ' ∨ c = chr '\t' := by simp [isBlank]
theorem isNameStart_iff (c : Byte) : isNameStart c = true ↔ c ∈ letters := by
  revert c; exact forall_byte (by decide +kernel)
theorem isDigit_iff (c : Byte) : isDigit c = true ↔ c ∈ digits := by
  revert c; exact forall_byte (by decide +kernel)
theorem isNameChar_iff (c : Byte) : isNameChar c = true ↔ c ∈ letters ∨ c ∈ digits := by
  rw [← isNameStart_iff, ← isDigit_iff]; simp [isNameChar]

theorem start_not_blank : ∀ c, isNameStart c = true → isBlank c = false := forall_byte (by decide +kernel)
theorem digit_not_blank : ∀ c, isDigit c = true → isBlank c = false := forall_byte (by decide +kernel)

theorem go_nameI_blanks (root : List (Bytes × Value R)) (cur : Option (Value R)) (rest : Bytes) {p : Bytes} (h : Blanks p) :
    go root .nameI cur (p ++ rest) = go root .nameI cur rest := by
  induction p with
  | nil => rfl
  | cons c t ih =>
    rw [List.cons_append, go, if_pos ((isBlank_iff c).2 (h c (by simp)))]
    exact ih fun d hd => h d (List.mem_cons_of_mem _ hd)

theorem go_nameT_blanks (root : List (Bytes × Value R)) (cur : Option (Value R)) (rest : Bytes) {p : Bytes} (h : Blanks p) :
    go root .nameT cur (p ++ rest) = go root .nameT cur rest := by
  induction p with
  | nil => rfl
  | cons c t ih =>
    rw [List.cons_append, go, if_pos ((isBlank_iff c).2 (h c (by simp)))]
    exact ih fun d hd => h d (List.mem_cons_of_mem _ hd)

theorem go_indexI_blanks (root : List (Bytes × Value R)) (cur : Option (Value R)) (rest : Bytes) {p : Bytes} (h : Blanks p) :
    go root .indexI cur (p ++ rest) = go root .indexI cur rest := by
  induction p with
  | nil => rfl
  | cons c t ih =>
    rw [List.cons_append, go, if_pos ((isBlank_iff c).2 (h c (by simp)))]
    exact ih fun d hd => h d (List.mem_cons_of_mem _ hd)

theorem go_indexT_blanks (root : List (Bytes × Value R)) (cur : Option (Value R)) (rest : Bytes) {p : Bytes} (h : Blanks p) :
    go root .indexT cur (p ++ rest) = go root .indexT cur rest := by
  induction p with
  | nil => rfl
  | cons c t ih =>
    rw [List.cons_append, go, if_pos ((isBlank_iff c).2 (h c (by simp)))]
    exact ih fun d hd => h d (List.mem_cons_of_mem _ hd)

theorem go_name_chars (root : List (Bytes × Value R)) (cur : Option (Value R)) (rest : Bytes) {t : Bytes} (h : ∀ d ∈ t, isNameChar d = true) :
    ∀ acc, go root (.name acc) cur (t ++ rest) = go root (.name (acc ++ t)) cur rest := by
  induction t with
  | nil => intro acc; simp
  | cons c t ih =>
    intro acc
    rw [List.cons_append, go, if_pos (h c (by simp)), ih fun d hd => h d (List.mem_cons_of_mem _ hd)]
    simp

theorem go_name (root : List (Bytes × Value R)) (cur : Option (Value R)) (rest : Bytes) {n : Bytes} (h : IsName n) :
    go root .nameI cur (n ++ rest) = go root (.name n) cur rest := by
  obtain ⟨c, t, rfl, hc, ht⟩ := h
  have hc := (isNameStart_iff c).2 hc
  rw [List.cons_append, go, start_not_blank c hc, if_neg (by decide), if_pos hc, go_name_chars _ _ _ fun d hd => (isNameChar_iff d).2 (ht d hd)]
  rfl

/-- A text that ends a name. -/
def EndsName (rest : Bytes) : Prop := ∀ c, rest.head? = some c → isBlank c = true ∨ c = chr '.' ∨ c = chr '['

theorem blank_not_char : ∀ c, isBlank c = true ∨ c = chr '.' ∨ c = chr '[' → isNameChar c = false := forall_byte (by decide +kernel)
theorem bracket_not_char : ∀ c, c = chr ']' ∨ isBlank c = true → isNameChar c = false := forall_byte (by decide +kernel)
theorem blank_not_digit : ∀ c, isBlank c = true ∨ c = chr ']' → isDigit c = false := forall_byte (by decide +kernel)

theorem tail_endsName {rest : Bytes} {parts : List Part} (h : Tail rest parts) : EndsName rest := by
  intro c hc
  cases h with
  | done hp =>
    cases rest with
    | nil => exact nomatch hc
    | cons d t => cases hc; exact .inl ((isBlank_iff c).2 (hp c (by simp)))
  | @name p _ _ _ _ hp =>
    cases p with
    | nil => cases hc; exact .inr (.inl rfl)
    | cons d t => cases hc; exact .inl ((isBlank_iff c).2 (hp c (by simp)))
  | @index p _ _ _ _ _ hp =>
    cases p with
    | nil => cases hc; exact .inr (.inr rfl)
    | cons d t => cases hc; exact .inl ((isBlank_iff c).2 (hp c (by simp)))

def Res.bind (r : Res R) (f : Value R → Res R) : Res R :=
  match r with
  | .found v => f v
  | .missing => .missing
  | .error => .error

theorem go_name_end (root : List (Bytes × Value R)) (cur : Option (Value R)) (acc rest : Bytes) (h : EndsName rest) :
    go root (.name acc) cur rest = (applyName root cur acc).bind fun v => go root .nameT (some v) rest := by
  cases rest with
  | nil =>
    simp only [go]
    cases applyName root cur acc <;> rfl
  | cons c t =>
    have hc := h c rfl
    rw [go, blank_not_char c hc, if_neg (by decide)]
    by_cases hb : isBlank c = true
    · rw [if_pos hb]
      cases applyName root cur acc <;> simp [Res.bind, go, hb]
    · rw [if_neg hb]
      rcases hc with hc | rfl | rfl
      · exact absurd hc hb
      · rw [if_pos rfl]
        cases applyName root cur acc <;> simp [Res.bind, go, hb]
      · rw [if_neg (by decide), if_pos rfl]
        cases applyName root cur acc <;> simp only [Res.bind]
        rw [go, if_neg hb, if_neg (by decide), if_pos rfl]

/-- Each digit may be appended to the number `n`. -/
def fits (n : Nat) : Bytes → Prop
  | [] => True
  | d :: ds => n < 999999 ∧ fits (n * 10 + digit d) ds

theorem go_index_digits (root : List (Bytes × Value R)) (cur : Option (Value R)) (rest : Bytes) {ds : Bytes} (h : ∀ d ∈ ds, isDigit d = true) :
    ∀ n, fits n ds → go root (.index n) cur (ds ++ rest) = go root (.index (ds.foldl (fun a d => a * 10 + digit d) n)) cur rest := by
  induction ds with
  | nil => intro n _; rfl
  | cons c t ih =>
    intro n hf
    rw [List.cons_append, go, if_pos (h c (by simp)), if_neg (by have := hf.1; omega), ih (fun d hd => h d (List.mem_cons_of_mem _ hd)) _ hf.2]
    rfl

theorem foldl_ge (ds : Bytes) : ∀ n, n ≤ ds.foldl (fun a d => a * 10 + (d.toNat - 48)) n := by
  induction ds with
  | nil => intro n; exact Nat.le_refl _
  | cons d t ih =>
    intro n
    have := ih (n * 10 + (d.toNat - 48))
    simp only [List.foldl_cons]
    omega

theorem fits_iff (ds : Bytes) : ∀ (n : Nat), fits n ds ↔ (ds = [] ∨ ds.dropLast.foldl (fun a d => a * 10 + (d.toNat - 48)) n < 999999) := by
  induction ds with
  | nil => intro n; simp [fits]
  | cons d t ih =>
    intro n
    simp only [fits, ih, reduceCtorEq, false_or]
    cases t with
    | nil => simp
    | cons e t =>
      simp only [reduceCtorEq, false_or, List.dropLast_cons₂, List.foldl_cons]
      have := foldl_ge (e :: t).dropLast (n * 10 + digit d)
      simp only [digit] at this ⊢
      constructor
      · exact fun h => h.2
      · intro h; exact ⟨by omega, h⟩

theorem go_index (root : List (Bytes × Value R)) (cur : Option (Value R)) (rest : Bytes) {ds : Bytes} (h : IsIndex ds) :
    go root .indexI cur (ds ++ rest) = go root (.index (decimal ds)) cur rest := by
  obtain ⟨h1, h2, h3⟩ := h
  cases ds with
  | nil => exact absurd rfl h1
  | cons c t =>
    have hc := (isDigit_iff c).2 (h2 c (by simp))
    rw [List.cons_append, go, digit_not_blank c hc, if_neg (by decide), if_pos hc,
      go_index_digits _ _ _ (fun d hd => (isDigit_iff d).2 (h2 d (List.mem_cons_of_mem _ hd))) _ ?_]
    · simp [decimal, digit]
    · rw [fits_iff]
      cases t with
      | nil => exact .inl rfl
      | cons e t =>
        refine .inr ?_
        simpa [decimal, digit] using h3

theorem go_index_end (root : List (Bytes × Value R)) (cur : Option (Value R)) (n : Nat) {r : Bytes} (rest : Bytes) (h : Blanks r) :
    go root (.index n) cur (r ++ (chr ']' :: rest)) = (applyIndex cur n).bind fun v => go root .nameT (some v) rest := by
  cases r with
  | nil =>
    rw [List.nil_append, go, if_neg (by decide), if_neg (by decide), if_pos rfl]
    cases applyIndex cur n <;> rfl
  | cons c t =>
    have hb := (isBlank_iff c).2 (h c (by simp))
    rw [List.cons_append, go, blank_not_digit c (.inl hb), if_neg (by decide), if_pos hb]
    cases applyIndex cur n with
    | missing => rfl
    | error => rfl
    | found v =>
      simp only [Res.bind]
      rw [go_indexT_blanks _ _ _ fun d hd => h d (List.mem_cons_of_mem _ hd), go, if_neg (by decide), if_pos rfl]

theorem applyName_child (root : List (Bytes × Value R)) (v : Value R) (n : Bytes) : applyName root (some v) n = child v (.name n) := by
  cases v <;> try rfl
  simp only [applyName, lookup, child]
  rename_i o
  cases o.find? fun e => e.1 == n <;> rfl

theorem applyName_root (root : List (Bytes × Value R)) (n : Bytes) : applyName root none n = child (.object root) (.name n) := by
  simp only [applyName, lookup, child]
  cases root.find? fun e => e.1 == n <;> rfl

theorem applyIndex_child (v : Value R) (i : Nat) : applyIndex (some v) i = child v (.index i) := by
  cases v <;> try rfl
  simp only [applyIndex, child]
  rename_i l
  cases l[i]? <;> rfl

theorem follow_cons (v : Value R) (p : Part) (ps : List Part) : follow v (p :: ps) = (child v p).bind fun w => follow w ps := by
  simp only [follow]
  cases child v p <;> rfl

theorem go_tail (root : List (Bytes × Value R)) {rest : Bytes} {parts : List Part} (h : Tail rest parts) : ∀ v, go root .nameT (some v) rest = follow v parts := by
  induction h with
  | @done p hp =>
    intro v
    have := go_nameT_blanks root (some v) [] hp
    rw [List.append_nil] at this
    rw [this]; rfl
  | name hp hq hn ht ih =>
    intro v
    rw [go_nameT_blanks _ _ _ hp, go, if_neg (by decide), if_pos rfl, go_nameI_blanks _ _ _ hq, go_name _ _ _ hn, go_name_end _ _ _ _ (tail_endsName ht),
      applyName_child, follow_cons]
    simp only [ih]
  | index hp hq hd hr ht ih =>
    intro v
    rw [go_nameT_blanks _ _ _ hp, go, if_neg (by decide), if_neg (by decide), if_pos rfl, go_indexI_blanks _ _ _ hq, go_index _ _ _ hd, go_index_end _ _ _ _ hr,
      applyIndex_child, follow_cons]
    simp only [ih]

theorem go_spells (root : List (Bytes × Value R)) {path : Bytes} {parts : List Part} (h : Spells path parts) : go root .nameI none path = follow (.object root) parts := by
  obtain ⟨p, n, rest, ps, rfl, rfl, hp, hn, ht⟩ := h
  rw [go_nameI_blanks _ _ _ hp, go_name _ _ _ hn, go_name_end _ _ _ _ (tail_endsName ht), applyName_root, follow_cons]
  simp only [go_tail root ht]

/-! ## Nothing else is accepted -/

theorem tail_blank {c : Byte} (hc : isBlank c = true) {t : Bytes} {parts : List Part} (h : Tail t parts) : Tail (c :: t) parts := by
  have hb := (isBlank_iff c).1 hc
  have hx : ∀ {p : Bytes}, Blanks p → Blanks (c :: p) := fun hp d hd => by
    rcases List.mem_cons.1 hd with rfl | hd
    · exact hb
    · exact hp d hd
  cases h with
  | done hp => exact .done (hx hp)
  | name hp hq hn ht => exact .name (hx hp) hq hn ht
  | index hp hq hd hr ht => exact .index (hx hp) hq hd hr ht

/-- What the parser still accepts, by state. -/
def Accepts : St → Bytes → List Part → Prop
  | .nameI, txt, parts => Spells txt parts
  | .name acc, txt, parts => ∃ n rest ps, txt = n ++ rest ∧ parts = .name (acc ++ n) :: ps ∧ (∀ d ∈ n, isNameChar d = true) ∧ Tail rest ps
  | .nameT, txt, parts => Tail txt parts
  | .indexI, txt, parts => ∃ q ds r rest ps, txt = q ++ (ds ++ (r ++ (chr ']' :: rest))) ∧ parts = .index (decimal ds) :: ps ∧ Blanks q ∧ IsIndex ds ∧ Blanks r ∧ Tail rest ps
  | .index n, txt, parts => ∃ ds r rest ps, txt = ds ++ (r ++ (chr ']' :: rest)) ∧ parts = .index (ds.foldl (fun a d => a * 10 + digit d) n) :: ps ∧
      (∀ d ∈ ds, isDigit d = true) ∧ fits n ds ∧ Blanks r ∧ Tail rest ps
  | .indexT, txt, parts => ∃ r rest, txt = r ++ (chr ']' :: rest) ∧ Blanks r ∧ Tail rest parts

def home (root : List (Bytes × Value R)) (cur : Option (Value R)) : Value R := cur.getD (.object root)

theorem applyName_home (root : List (Bytes × Value R)) (cur : Option (Value R)) (n : Bytes) : applyName root cur n = child (home root cur) (.name n) := by
  cases cur with
  | none => exact applyName_root root n
  | some v => exact applyName_child root v n

/-- The parser is right about the text `txt`, in state `st`. -/
def Right (root : List (Bytes × Value R)) (st : St) (cur : Option (Value R)) (txt : Bytes) (r : Res R) : Prop :=
  ∃ pre rest close parts, txt = pre ++ rest ∧ (close = [] ∨ close = [chr ']']) ∧ Accepts st (pre ++ close) parts ∧ follow (home root cur) parts = r ∧
    (r ≠ .missing → rest = [] ∧ close = []) ∧ ∀ c, rest.head? = some c → isNameChar c = false

theorem right_step {root : List (Bytes × Value R)} {st st' : St} {cur cur' : Option (Value R)} {c : Byte} {t : Bytes} {r : Res R}
    (h : Right root st' cur' t r)
    (hs : ∀ txt parts, Accepts st' txt parts → follow (home root cur') parts = r → ∃ parts', Accepts st (c :: txt) parts' ∧ follow (home root cur) parts' = r) :
    Right root st cur (c :: t) r := by
  obtain ⟨pre, rest, close, parts, rfl, hc, ha, hf, hr, hx⟩ := h
  obtain ⟨parts', ha', hf'⟩ := hs _ _ ha hf
  exact ⟨c :: pre, rest, close, parts', rfl, hc, ha', hf', hr, hx⟩

theorem go_right (root : List (Bytes × Value R)) (txt : Bytes) : ∀ (st : St) (cur : Option (Value R)) (r : Res R), go root st cur txt = r → r ≠ .error →
    Right root st cur txt r := by
  induction txt with
  | nil =>
    intro st cur r h he
    cases st with
    | name acc =>
      refine ⟨[], [], [], [.name acc], rfl, .inl rfl, ⟨[], [], [], rfl, by simp, by simp, .done (by simp [Blanks])⟩, ?_, fun _ => ⟨rfl, rfl⟩, fun _ e => (nomatch e)⟩
      rw [follow_cons, ← applyName_home]
      simp only [go] at h
      rw [h]
      cases r <;> rfl
    | nameT =>
      cases cur with
      | none => exact absurd h.symm he
      | some v => exact ⟨[], [], [], [], rfl, .inl rfl, .done (by simp [Blanks]), h, fun _ => ⟨rfl, rfl⟩, fun _ e => (nomatch e)⟩
    | nameI => exact absurd h.symm he
    | indexI => exact absurd h.symm he
    | index n => exact absurd h.symm he
    | indexT => exact absurd h.symm he
  | cons c t ih =>
    intro st cur r h he
    -- the name is applied, and parsing goes on in state `st'`
    have hname : ∀ acc st', isNameChar c = false → (∀ txt parts, Accepts st' txt parts → Tail (c :: txt) parts) →
        (match applyName root cur acc with | .found v => go root st' (some v) t | r => r) = r → Right root (.name acc) cur (c :: t) r := by
      intro acc st' hcn hst h
      have hch := applyName_home root cur acc
      cases ha : applyName root cur acc with
      | error => rw [ha] at h; exact absurd h.symm he
      | missing =>
        rw [ha] at h hch
        refine ⟨[], c :: t, [], [.name acc], rfl, .inl rfl, ⟨[], [], [], rfl, by simp, by simp, .done (by simp [Blanks])⟩, ?_, fun hm => absurd h.symm hm, fun d hd => by cases hd; exact hcn⟩
        rw [follow_cons, ← hch, ← h]; rfl
      | found v =>
        rw [ha] at h hch
        refine right_step (ih st' (some v) r h he) fun txt parts hacc hf => ?_
        refine ⟨.name acc :: parts, ⟨[], c :: txt, parts, rfl, by simp, by simp, hst _ _ hacc⟩, ?_⟩
        rw [follow_cons, ← hch]; exact hf
    have hindex : ∀ n st', (∀ txt parts, Accepts st' txt parts → Accepts .indexT (c :: txt) parts) → (c = chr ']' ∨ isBlank c = true) →
        (match applyIndex cur n with | .found v => go root st' (some v) t | r => r) = r → Right root (.index n) cur (c :: t) r := by
      intro n st' hst hcc h
      cases cur with
      | none => exact absurd h.symm he
      | some w =>
        have hch := applyIndex_child w n
        cases ha : applyIndex (some w) n with
        | error => rw [ha] at h; exact absurd h.symm he
        | missing =>
          rw [ha] at h hch
          refine ⟨[], c :: t, [chr ']'], [.index n], rfl, .inr rfl, ⟨[], [], [], [], rfl, rfl, by simp, trivial, by simp [Blanks], .done (by simp [Blanks])⟩, ?_,
            fun hm => absurd h.symm hm, fun d hd => by cases hd; exact bracket_not_char c hcc⟩
          rw [follow_cons, home, Option.getD_some, ← hch, ← h]; rfl
        | found v =>
          rw [ha] at h hch
          refine right_step (ih st' (some v) r h he) fun txt parts hacc hf => ?_
          obtain ⟨r', rest, he', hb, ht⟩ := hst _ _ hacc
          refine ⟨.index n :: parts, ⟨[], r', rest, parts, he', rfl, by simp, trivial, hb, ht⟩, ?_⟩
          rw [follow_cons, home, Option.getD_some, ← hch]; exact hf
    cases st with
    | nameI =>
      rw [go] at h
      split at h
      · rename_i hb
        refine right_step (ih _ _ r h he) fun txt parts hacc hf => ⟨parts, ?_, hf⟩
        obtain ⟨p, n, rest, ps, rfl, rfl, hp, hn, ht⟩ := hacc
        refine ⟨c :: p, n, rest, ps, rfl, rfl, fun d hd => ?_, hn, ht⟩
        rcases List.mem_cons.1 hd with rfl | hd
        · exact (isBlank_iff d).1 hb
        · exact hp d hd
      · split at h
        · rename_i hs
          refine right_step (ih _ _ r h he) fun txt parts hacc hf => ⟨parts, ?_, hf⟩
          obtain ⟨n, rest, ps, rfl, rfl, hn, ht⟩ := hacc
          exact ⟨[], c :: n, rest, ps, rfl, rfl, by simp [Blanks], ⟨c, n, rfl, (isNameStart_iff c).1 hs, fun d hd => (isNameChar_iff d).1 (hn d hd)⟩, ht⟩
        · exact absurd h.symm he
    | name acc =>
      rw [go] at h
      split at h
      · rename_i hs
        refine right_step (ih _ _ r h he) fun txt parts hacc hf => ⟨parts, ?_, hf⟩
        obtain ⟨n, rest, ps, rfl, rfl, hn, ht⟩ := hacc
        refine ⟨c :: n, rest, ps, rfl, by simp, fun d hd => ?_, ht⟩
        rcases List.mem_cons.1 hd with rfl | hd
        · exact hs
        · exact hn d hd
      · rename_i hs
        split at h
        · rename_i hb
          exact hname acc .nameT (by simpa using hs) (fun txt parts ha => tail_blank hb ha) h
        · split at h
          · rename_i hd
            subst hd
            refine hname acc .nameI (by decide) (fun txt parts ha => ?_) h
            obtain ⟨p, n, rest, ps, rfl, rfl, hp, hn, ht⟩ := ha
            exact .name (p := []) (by simp [Blanks]) hp hn ht
          · split at h
            · rename_i hd
              subst hd
              refine hname acc .indexI (by decide) (fun txt parts ha => ?_) h
              obtain ⟨q, ds, r, rest, ps, rfl, rfl, hq, hds, hr, ht⟩ := ha
              exact .index (p := []) (by simp [Blanks]) hq hds hr ht
            · exact absurd h.symm he
    | nameT =>
      rw [go] at h
      split at h
      · rename_i hb
        exact right_step (ih _ _ r h he) fun txt parts hacc hf => ⟨parts, tail_blank hb hacc, hf⟩
      · split at h
        · rename_i hd
          subst hd
          refine right_step (ih _ _ r h he) fun txt parts hacc hf => ⟨parts, ?_, hf⟩
          obtain ⟨p, n, rest, ps, rfl, rfl, hp, hn, ht⟩ := hacc
          exact Tail.name (p := []) (by simp [Blanks]) hp hn ht
        · split at h
          · rename_i hd
            subst hd
            refine right_step (ih _ _ r h he) fun txt parts hacc hf => ⟨parts, ?_, hf⟩
            obtain ⟨q, ds, r, rest, ps, rfl, rfl, hq, hds, hr, ht⟩ := hacc
            exact Tail.index (p := []) (by simp [Blanks]) hq hds hr ht
          · exact absurd h.symm he
    | indexI =>
      rw [go] at h
      split at h
      · rename_i hb
        refine right_step (ih _ _ r h he) fun txt parts hacc hf => ⟨parts, ?_, hf⟩
        obtain ⟨q, ds, r, rest, ps, rfl, rfl, hq, hds, hr, ht⟩ := hacc
        refine ⟨c :: q, ds, r, rest, ps, rfl, rfl, fun d hd => ?_, hds, hr, ht⟩
        rcases List.mem_cons.1 hd with rfl | hd
        · exact (isBlank_iff d).1 hb
        · exact hq d hd
      · split at h
        · rename_i hs
          refine right_step (ih _ _ r h he) fun txt parts hacc hf => ⟨parts, ?_, hf⟩
          obtain ⟨ds, r, rest, ps, rfl, rfl, hds, hfit, hr, ht⟩ := hacc
          refine ⟨[], c :: ds, r, rest, ps, rfl, by simp [decimal, digit], by simp [Blanks], ⟨by simp, ?_, ?_⟩, hr, ht⟩
          · intro d hd
            rcases List.mem_cons.1 hd with rfl | hd
            · exact (isDigit_iff d).1 hs
            · exact (isDigit_iff d).1 (hds d hd)
          · rw [fits_iff] at hfit
            rcases hfit with rfl | hfit
            · simp [decimal]
            · cases ds with
              | nil => simp [decimal]
              | cons e ds => simpa [decimal, digit] using hfit
        · exact absurd h.symm he
    | index n =>
      rw [go] at h
      split at h
      · rename_i hs
        split at h
        · exact absurd h.symm he
        · rename_i hn
          refine right_step (ih _ _ r h he) fun txt parts hacc hf => ⟨parts, ?_, hf⟩
          obtain ⟨ds, r, rest, ps, rfl, rfl, hds, hfit, hr, ht⟩ := hacc
          refine ⟨c :: ds, r, rest, ps, rfl, rfl, fun d hd => ?_, ⟨by omega, hfit⟩, hr, ht⟩
          rcases List.mem_cons.1 hd with rfl | hd
          · exact hs
          · exact hds d hd
      · split at h
        · rename_i hb
          refine hindex n .indexT (fun txt parts ha => ?_) (.inr hb) h
          obtain ⟨r, rest, rfl, hr, ht⟩ := ha
          refine ⟨c :: r, rest, rfl, fun d hd => ?_, ht⟩
          rcases List.mem_cons.1 hd with rfl | hd
          · exact (isBlank_iff d).1 hb
          · exact hr d hd
        · split at h
          · rename_i hd
            subst hd
            exact hindex n .nameT (fun txt parts ha => ⟨[], txt, rfl, by simp [Blanks], ha⟩) (.inl rfl) h
          · exact absurd h.symm he
    | indexT =>
      rw [go] at h
      split at h
      · rename_i hb
        refine right_step (ih _ _ r h he) fun txt parts hacc hf => ⟨parts, ?_, hf⟩
        obtain ⟨r, rest, rfl, hr, ht⟩ := hacc
        refine ⟨c :: r, rest, rfl, fun d hd => ?_, ht⟩
        rcases List.mem_cons.1 hd with rfl | hd
        · exact (isBlank_iff d).1 hb
        · exact hr d hd
      · split at h
        · rename_i hd
          subst hd
          exact right_step (ih _ _ r h he) fun txt parts hacc hf => ⟨parts, ⟨[], txt, rfl, by simp [Blanks], hacc⟩, hf⟩
        · exact absurd h.symm he

theorem go_found (root : List (Bytes × Value R)) (path : Bytes) (v : Value R) : go root .nameI none path = .found v ↔ Denotes root path v := by
  constructor
  · intro h
    obtain ⟨pre, rest, close, parts, rfl, -, ha, hf, hr, -⟩ := go_right root path _ _ _ h (fun e => nomatch e)
    obtain ⟨rfl, rfl⟩ := hr (fun e => nomatch e)
    rw [List.append_nil] at ha ⊢
    exact ⟨parts, ha, hf⟩
  · rintro ⟨parts, hs, hf⟩
    rw [go_spells root hs, hf]

theorem go_missing (root : List (Bytes × Value R)) (path : Bytes) (h : go root .nameI none path = .missing) : Absent root path := by
  obtain ⟨pre, rest, close, parts, he, hc, ha, hf, -, hx⟩ := go_right root path _ _ _ h (fun e => nomatch e)
  refine ⟨pre, rest, close, parts, he, hc, ha, hf, fun c hh => ?_⟩
  have := hx c hh
  rw [← Bool.not_eq_true, isNameChar_iff] at this
  exact ⟨fun e => this (.inl e), fun e => this (.inr e)⟩

theorem query_eq (root : List (Bytes × Value R)) (path : Bytes) (v : Value R) : query root path = some v ↔ Denotes root path v ∨ (v = .null ∧ go root .nameI none path = .missing) := by
  rw [← go_found]
  unfold query
  cases go root .nameI none path with
  | found w => simp
  | missing => simp [eq_comm]
  | error => simp

end Verif.Config
