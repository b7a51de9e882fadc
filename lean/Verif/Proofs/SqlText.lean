import Verif.Spec.SqlText
import Verif.Proofs.Mysql
import Verif.Proofs.MysqlCheck
/-! # Proofs about the texts of statements -/
namespace Verif.Sql
open Verif.MysqlCheck Verif.SqlText

/-- The reader could stop here. -/
def pending : St → Bool
  | .idle | .word _ | .tick _ | .quote _ => true
  | _ => false

/-- What it would report then. -/
def flush : St → List Tok
  | .word s => [.word s]
  | .tick s => [.name s]
  | .quote s => [.str s]
  | _ => []

/-- A text has these tokens. -/
def R (s : Bytes) (ts : List Tok) : Prop := pending (run .idle s).2 = true ∧ (run .idle s).1 ++ flush (run .idle s).2 = ts

instance (s : Bytes) (ts : List Tok) : Decidable (R s ts) := by unfold R; infer_instance

/-- A text has these tokens and ends with a separator. -/
def R0 (s : Bytes) (ts : List Tok) : Prop := run .idle s = (ts, .idle)

instance (s : Bytes) (ts : List Tok) : Decidable (R0 s ts) := by unfold R0; infer_instance

theorem R.tokens {s : Bytes} {ts : List Tok} (h : R s ts) : tokens s = some ts := by
  obtain ⟨h1, h2⟩ := h
  unfold Sql.tokens
  cases hr : run .idle s with
  | mk l st =>
    rw [hr] at h1 h2
    cases st with
    | idle => simpa [flush] using h2
    | word w => simpa [flush] using h2
    | tick w => simpa [flush] using h2
    | quote w => simpa [flush] using h2
    | _ => simp [pending] at h1

theorem run_append (st : St) (a b : Bytes) : run st (a ++ b) = ((run st a).1 ++ (run (run st a).2 b).1, (run (run st a).2 b).2) := by
  induction a generalizing st with
  | nil => simp [run]
  | cons c a ih => simp [run, ih]

/-- Characters that end words, names and strings. -/
def delim (c : Byte) : Bool := !wordByte c && c ≠ chr '`' && c ≠ chr '\''

theorem step_delim {st : St} (h : pending st = true) {c : Byte} (hc : delim c = true) : step st c = (flush st ++ (begins c).1, (begins c).2) := by
  simp only [delim, Bool.and_eq_true, Bool.not_eq_true', decide_eq_true_eq] at hc
  obtain ⟨⟨h1, h2⟩, h3⟩ := hc
  cases st with
  | idle => rfl
  | word s => simp [step, h1, flush]
  | tick s => simp [step, h2, flush]
  | quote s => simp [step, h3, flush]
  | _ => simp [pending] at h

theorem R.app {a b : Bytes} {c : Byte} {ta tb : List Tok} (ha : R a ta) (hb : R (c :: b) tb) (hc : delim c = true) : R (a ++ c :: b) (ta ++ tb) := by
  obtain ⟨a1, a2⟩ := ha
  obtain ⟨b1, b2⟩ := hb
  unfold R
  rw [run_append]
  have e : run (run .idle a).2 (c :: b) = (flush (run .idle a).2 ++ (run .idle (c :: b)).1, (run .idle (c :: b)).2) := by
    show ((step _ c).1 ++ (run (step _ c).2 b).1, (run (step _ c).2 b).2) = _
    rw [step_delim a1 hc]
    simp [run, step]
  rw [e]
  refine ⟨b1, ?_⟩
  rw [← a2, ← b2]
  simp

theorem R0.app {a b : Bytes} {ta tb : List Tok} (ha : R0 a ta) (hb : R b tb) : R (a ++ b) (ta ++ tb) := by
  unfold R0 at ha
  obtain ⟨b1, b2⟩ := hb
  unfold R
  rw [run_append, ha]
  refine ⟨b1, ?_⟩
  rw [← b2]
  simp

theorem R.nil : R [] [] := ⟨rfl, rfl⟩

theorem run_name (a s : Bytes) (h : chr '`' ∉ s) : run (.name a) s = ([], .name (a ++ s)) := by
  induction s generalizing a with
  | nil => simp [run]
  | cons c s ih =>
    simp only [List.mem_cons, not_or] at h
    have hc : ¬ c = chr '`' := fun e => h.1 e.symm
    simp only [run, step, if_neg hc, ih _ h.2]
    simp

theorem R.name {s : Bytes} (h : chr '`' ∉ s) : R (b! "`" ++ s ++ b! "`") [.name s] := by
  have e : run .idle (b! "`" ++ s ++ b! "`") = ([], .tick s) := by
    rw [run_append, run_append]
    have e1 : run .idle (b! "`") = ([], .name []) := by decide
    rw [e1]
    simp only [run_name [] s h]
    rfl
  unfold R
  rw [e]
  exact ⟨rfl, rfl⟩

theorem run_str (a s : Bytes) : run (.str a) (Mysql.escape s) = ([], .str (a ++ s)) := by
  induction s generalizing a with
  | nil => simp [run, Mysql.escape]
  | cons c s ih =>
    have e : Mysql.escape (c :: s) = (if Mysql.special c then [chr '\\', c] else [c]) ++ Mysql.escape s := by simp [Mysql.escape]
    rw [e, run_append]
    by_cases hc : Mysql.special c = true
    · rw [if_pos hc]
      have : run (.str a) [chr '\\', c] = ([], .str (a ++ [c])) := by
        simp [run, step, Mysql.unescape_special hc]
      rw [this]
      simp only [ih]
      simp
    · rw [if_neg hc]
      have : run (.str a) [c] = ([], .str (a ++ [c])) := by
        simp only [Mysql.special, Bool.or_eq_true, decide_eq_true_eq, not_or] at hc
        simp [run, step, hc.1.1, hc.2]
      rw [this]
      simp only [ih]
      simp

theorem R.str (s : Bytes) : R (chr '\'' :: (Mysql.escape s ++ [chr '\''])) [.str s] := by
  have e : run .idle (chr '\'' :: (Mysql.escape s ++ [chr '\''])) = ([], .quote s) := by
    have e1 : run .idle [chr '\''] = ([], .str []) := by decide
    rw [← List.singleton_append, run_append, e1]
    simp only [run_append, run_str]
    rfl
  unfold R
  rw [e]
  exact ⟨rfl, rfl⟩

theorem run_word (a s : Bytes) (h : ∀ c ∈ s, wordByte c = true) : run (.word a) s = ([], .word (a ++ s)) := by
  induction s generalizing a with
  | nil => simp [run]
  | cons c s ih =>
    have h1 := h c (List.mem_cons_self ..)
    simp only [run, step, h1, if_true, ih _ fun x hx => h x (List.mem_cons_of_mem _ hx)]
    simp

theorem R.word {s : Bytes} (hn : s ≠ []) (h : ∀ c ∈ s, wordByte c = true) : R s [.word s] := by
  cases s with
  | nil => exact absurd rfl hn
  | cons c s =>
    have h1 := h c (List.mem_cons_self ..)
    have h2 : ¬ c = chr '`' := by rintro rfl; revert h1; decide
    have h3 : ¬ c = chr '\'' := by rintro rfl; revert h1; decide
    have e : run .idle (c :: s) = ([], .word (c :: s)) := by
      simp only [run, step, begins, if_neg h2, if_neg h3, h1, if_true, run_word [c] s fun x hx => h x (List.mem_cons_of_mem _ hx)]
      simp
    unfold R
    rw [e]
    exact ⟨rfl, rfl⟩

/-- Items with separators. -/
theorem R.joined {sep : Bytes} (hs : R0 (44 :: sep) [.sym (chr ',')]) : ∀ (l : List (Bytes × List Tok)), (∀ p ∈ l, R p.1 p.2) → R (SqlText.joined (44 :: sep) (l.map (·.1))) (commas (l.map (·.2)))
  | [], _ => R.nil
  | p :: l, h => by
    simp only [List.map_cons, SqlText.joined, commas]
    have key : ∀ (l : List (Bytes × List Tok)), (∀ q ∈ l, R q.1 q.2) → ∀ (a : Bytes) (ta : List Tok), R a ta →
        R (a ++ (l.map (·.1)).flatMap ((44 :: sep) ++ ·)) (ta ++ (l.map (·.2)).flatMap (.sym (chr ',') :: ·)) := by
      intro l
      induction l with
      | nil => intro _ a ta ha; simpa using ha
      | cons q l ih =>
        intro hq a ta ha
        have h1 : R (a ++ 44 :: (sep ++ q.1)) (ta ++ ([.sym (chr ',')] ++ q.2)) := by
          refine R.app ha ?_ (by decide)
          have := R0.app hs (hq q (List.mem_cons_self ..))
          simpa using this
        have := ih (fun x hx => hq x (List.mem_cons_of_mem _ hx)) _ _ h1
        simpa using this
    exact key l (fun q hq => h q (List.mem_cons_of_mem _ hq)) p.1 p.2 (h p (List.mem_cons_self ..))

/-- The same, behind something. -/
theorem R.items {sep : Bytes} (hs : R0 (44 :: sep) [.sym (chr ',')]) (l : List (Bytes × List Tok)) (h : ∀ p ∈ l, R p.1 p.2) {a : Bytes} {ta : List Tok} (ha : R a ta) :
    R (a ++ (l.map (·.1)).flatMap ((44 :: sep) ++ ·)) (ta ++ (l.map (·.2)).flatMap (.sym (chr ',') :: ·)) := by
  have := R.joined hs ((a, ta) :: l) (by
    intro p hp
    rcases List.mem_cons.mp hp with rfl | hp
    · exact ha
    · exact h p hp)
  simpa [SqlText.joined, commas] using this

/-! ## Literals -/

theorem digits_std : ∀ fuel n, n ≤ fuel → Http.digits 10 (fun d => UInt8.ofNat (0x30 + d)) fuel n = (Nat.toDigits 10 n).map chr ∧
    Http.digits 10 (fun d => UInt8.ofNat (0x30 + d)) fuel n ≠ [] ∧ ∀ c ∈ Http.digits 10 (fun d => UInt8.ofNat (0x30 + d)) fuel n, wordByte c = true := by
  have hd : ∀ d < 10, UInt8.ofNat (0x30 + d) = chr (Nat.digitChar d) := by decide
  have hw : ∀ d < 10, wordByte (UInt8.ofNat (0x30 + d)) = true := by decide
  intro fuel
  induction fuel with
  | zero =>
    intro n h
    obtain rfl : n = 0 := by omega
    decide
  | succ f ih =>
    intro n h
    unfold Http.digits
    by_cases hn : n < 10
    · rw [if_pos hn, Nat.toDigits_of_lt_base hn]
      exact ⟨by rw [hd n hn]; rfl, by simp, by simpa using hw n hn⟩
    · obtain ⟨h1, h2, h3⟩ := ih (n / 10) (by omega)
      rw [if_neg hn, Nat.toDigits_of_base_le (by decide) (by omega)]
      refine ⟨by rw [h1, List.map_append, hd _ (by omega)]; rfl, by simp, ?_⟩
      intro c hc
      rcases List.mem_append.mp hc with hc | hc
      · exact h3 c hc
      · rw [List.mem_singleton] at hc; subst hc; exact hw _ (by omega)

theorem time_plain (zone : Int → Int) (ns : Int) : ∀ c ∈ (DateTime.print_git_partial zone ns).take 19, Mysql.special c = false := by
  intro c hc
  have hd : ∀ n : Nat, Mysql.special (DateTime.dig (n % 10)) = false := fun n => by
    have : ∀ i : Fin 10, Mysql.special (DateTime.dig i) = false := by decide
    exact this ⟨n % 10, Nat.mod_lt _ (by decide)⟩
  generalize ht : DateTime.breakDown (DateTime.clamp (DateTime.seconds ns)) (zone (DateTime.clamp (DateTime.seconds ns))) = tm at *
  have hp : (DateTime.print_git_partial zone ns).take 19 = DateTime.strftime DateTime.gitLocal tm := by
    unfold DateTime.print_git_partial
    simp only [ht]
    rfl
  rw [hp] at hc
  simp only [DateTime.strftime, DateTime.gitLocal, DateTime.hms, List.flatMap_cons, List.flatMap_append, List.flatMap_nil, List.cons_append, List.nil_append, DateTime.print1, DateTime.pad4,
    DateTime.pad2, List.mem_cons, List.append_nil, List.not_mem_nil, or_false] at hc
  rcases hc with rfl | rfl | rfl | rfl | rfl | rfl | rfl | rfl | rfl | rfl | rfl | rfl | rfl | rfl | rfl | rfl | rfl | rfl | rfl <;> first | exact hd _ | rfl

theorem R.value (L : Lib) (hL : ∀ d, L.double d ≠ [] ∧ ∀ c ∈ L.double d, wordByte c = true) (v : Val) : R (valueText L v) (valueTokens L.double L.zone v) := by
  cases v with
  | null => exact (by decide : R (b! "NULL") (words [b! "NULL"]))
  | integer n =>
    obtain ⟨h1, h2, h3⟩ := digits_std n.natAbs n.natAbs (Nat.le_refl _)
    have e : valueText L (.integer n) = (if n < 0 then [chr '-'] else []) ++ (Nat.toDigits 10 n.natAbs).map chr := by
      simp only [valueText, Http.decimal, h1]
      split <;> rfl
    show R (valueText L (.integer n)) [.word _]
    rw [← e]
    refine R.word ?_ ?_
    · simp only [valueText, Http.decimal]
      split
      · simp
      · exact h2
    · intro c hc
      simp only [valueText, Http.decimal] at hc
      split at hc
      · rcases List.mem_cons.mp hc with rfl | hc
        · decide
        · exact h3 c hc
      · exact h3 c hc
  | double d => exact R.word (hL d).1 (hL d).2
  | blob s =>
    simp only [valueText, valueTokens, Mysql.printBlob_eq, List.nil_append]
    exact R.str s
  | datetime ns =>
    have e : valueText L (.datetime ns) = chr '\'' :: (Mysql.escape ((DateTime.print_git_partial L.zone ns).take 19) ++ [chr '\'']) := by
      rw [Mysql.escape_plain]
      · rfl
      · exact time_plain L.zone ns
    rw [e]
    exact R.str _

/-! ## Definitions -/

/-- The tokens of a type, with what belongs to it in the code. -/
def typeToks (c : Column) : List Tok :=
  (if (define c).type = b! "varchar(255)" then .word (b! "varchar") :: parens (words [b! "255"])
   else if (define c).type = b! "datetime(6)" then .word (b! "datetime") :: parens (words [b! "6"])
   else [.word (define c).type]) ++
  (if (define c).autoIncrement then words [b! "AUTO_INCREMENT"] else []) ++ (if c.type = .autoIncrement then words [b! "NOT", b! "NULL"] else [])

theorem R.type (c : Column) (hd : c.type ≠ .dropped) : R (SqlText.typeText c.type) (typeToks c) := by
  cases c with
  | mk name type nullable default =>
    unfold typeToks
    cases type <;> first | exact absurd rfl hd | (simp only [define, reduceCtorEq, if_false, if_true]; decide +kernel)

theorem R.column (L : Lib) (hL : ∀ d, L.double d ≠ [] ∧ ∀ c ∈ L.double d, wordByte c = true) (c : Column) (hd : c.type ≠ .dropped) (hn : chr '`' ∉ c.name) :
    R (columnText L c) (columnTokens L.double L.zone (define c)) := by
  have h1 : R (b! "`" ++ c.name ++ b! "` " ++ SqlText.typeText c.type) (.name c.name :: typeToks c) := by
    have := R.app (R.name hn) (R0.app (a := b! " ") (ta := []) (by decide) (R.type c hd)) (by decide)
    simpa using this
  have hname : (define c).name = c.name := by unfold define; split <;> rfl
  unfold columnText columnTokens
  rw [hname]
  by_cases ha : c.type = .autoIncrement
  · have e1 : (define c).notNull = true := by simp [define, ha]
    have e2 : (define c).default = none := by simp [define, ha]
    rw [e1, e2]
    simp only [ha, ne_eq, not_true_eq_false, if_false, if_true] at h1 ⊢
    simpa [typeToks, ha] using h1
  · have e1 : (define c).notNull = !c.nullable := by simp [define, ha]
    have e2 : (define c).default = if c.default ≠ .null then some c.default else none := by simp [define, ha]
    rw [e1, e2]
    simp only [ne_eq, ha, not_false_eq_true, if_true]
    have h2 : R (if !c.nullable then (b! "`" ++ c.name ++ b! "` " ++ SqlText.typeText c.type) ++ b! " NOT NULL" else b! "`" ++ c.name ++ b! "` " ++ SqlText.typeText c.type) ((.name c.name :: typeToks c) ++ if !c.nullable then words [b! "NOT", b! "NULL"] else []) := by
      cases c.nullable with
      | true => simpa using h1
      | false => exact R.app h1 (by decide : R (b! " NOT NULL") (words [b! "NOT", b! "NULL"])) (by decide)
    by_cases hv : c.default = .null
    · simp only [hv, not_true_eq_false, if_false]
      simpa [typeToks, ha] using h2
    · simp only [hv, not_false_eq_true, if_true]
      have h3 : R (b! " DEFAULT " ++ valueText L c.default) (words [b! "DEFAULT"] ++ valueTokens L.double L.zone c.default) := R0.app (by decide) (R.value L hL c.default)
      have := R.app h2 h3 (by decide)
      simpa [typeToks, ha] using this

theorem R.index (i : Index) (hn : chr '`' ∉ i.name) (hc : ∀ n ∈ i.columns, chr '`' ∉ n) : R (indexText i) (indexTokens (defineIndex i)) := by
  have cols : R (b! " (" ++ SqlText.joined (b! ", ") (i.columns.map fun n => b! "`" ++ n ++ b! "`") ++ b! ")") (parens (commas (i.columns.map fun n => [.name n]))) := by
    have h1 := R.joined (sep := b! " ") (by decide) (i.columns.map fun n => (b! "`" ++ n ++ b! "`", [Tok.name n])) (by
      intro p hp
      obtain ⟨n, hm, rfl⟩ := List.mem_map.mp hp
      exact R.name (hc n hm))
    have h2 := R0.app (a := b! " (") (ta := [.sym (chr '(')]) (by decide) h1
    have h3 := R.app h2 (by decide : R (b! ")") [.sym (chr ')')]) (by decide)
    simpa [parens, Function.comp_def] using h3
  unfold indexText indexTokens
  have e : (defineIndex i).columns = i.columns := by unfold defineIndex; split <;> rfl
  rw [e, List.append_assoc, List.append_assoc]
  rw [List.append_assoc] at cols
  by_cases hp : sameName i.name (b! "PRIMARY") = true
  · have e : (defineIndex i).name = none := by simp [defineIndex, hp]
    rw [e]
    simp only [hp, if_true]
    exact R.app (by decide) cols (by decide)
  · have e1 : (defineIndex i).name = some i.name := by simp [defineIndex, hp]
    have e2 : (defineIndex i).unique = decide (i.type = .unique) := by simp [defineIndex, hp]
    rw [e1, e2]
    simp only [hp, if_false]
    by_cases hu : i.type = .unique
    · simp only [hu, if_true, decide_true]
      have h1 : R (b! "UNIQUE INDEX " ++ (b! "`" ++ i.name ++ b! "`")) (words [b! "UNIQUE", b! "INDEX"] ++ [.name i.name]) := R0.app (by decide) (R.name hn)
      have := R.app h1 cols (by decide)
      simpa using this
    · simp only [hu, if_false, decide_false]
      have h1 : R (b! "INDEX " ++ (b! "`" ++ i.name ++ b! "`")) (words [b! "INDEX"] ++ [.name i.name]) := R0.app (by decide) (R.name hn)
      have := R.app h1 cols (by decide)
      simpa using this

/-! ## Statements -/

theorem commas_cons (x : List Tok) (l : List (List Tok)) : commas (x :: l) = x ++ l.flatMap (.sym (chr ',') :: ·) := rfl

theorem commas_append {a : List (List Tok)} (ha : a ≠ []) (b : List (List Tok)) : commas (a ++ b) = commas a ++ b.flatMap (.sym (chr ',') :: ·) := by
  cases a with
  | nil => exact absurd rfl ha
  | cons x a => simp [commas]

theorem flat_group {g : List (List Tok)} (hg : g ≠ []) : g.flatMap (.sym (chr ',') :: ·) = .sym (chr ',') :: commas g := by
  cases g with
  | nil => exact absurd rfl hg
  | cons x g => simp [commas]

/-- Items of items. -/
theorem commas_groups : ∀ gs : List (List (List Tok)), (∀ g ∈ gs, g ≠ []) → commas (gs.map commas) = commas gs.flatten
  | [], _ => rfl
  | g :: gs, h => by
    rw [List.map_cons, commas_cons, List.flatten_cons, commas_append (h g (List.mem_cons_self ..))]
    congr 1
    have : ∀ gs : List (List (List Tok)), (∀ g ∈ gs, g ≠ []) → (gs.map commas).flatMap (.sym (chr ',') :: ·) = gs.flatten.flatMap (.sym (chr ',') :: ·) := by
      intro gs
      induction gs with
      | nil => intro _; rfl
      | cons g gs ih =>
        intro h
        rw [List.map_cons, List.flatMap_cons, List.flatten_cons, List.flatMap_append, flat_group (h g (List.mem_cons_self ..)), ih fun x hx => h x (List.mem_cons_of_mem _ hx)]
    exact this gs fun x hx => h x (List.mem_cons_of_mem _ hx)

/-- Texts of items, and the clauses in them. -/
structure Items (texts : List Bytes) (cs : List (List Tok)) : Prop where
  ex : ∃ ps : List (Bytes × List (List Tok)), texts = ps.map (·.1) ∧ cs = (ps.map (·.2)).flatten ∧ ∀ p ∈ ps, p.2 ≠ [] ∧ R p.1 (commas p.2)

theorem Items.nil : Items [] [] := ⟨[], rfl, rfl, by simp⟩

theorem Items.one {a : Bytes} {ts : List Tok} (h : R a ts) : Items [a] [ts] := ⟨[(a, [ts])], rfl, rfl, by simpa [commas] using h⟩

theorem Items.append {a b : List Bytes} {ca cb : List (List Tok)} (ha : Items a ca) (hb : Items b cb) : Items (a ++ b) (ca ++ cb) := by
  obtain ⟨p, rfl, rfl, hp⟩ := ha.ex
  obtain ⟨q, rfl, rfl, hq⟩ := hb.ex
  refine ⟨p ++ q, by simp, by simp, ?_⟩
  intro x hx
  rcases List.mem_append.mp hx with h | h
  · exact hp x h
  · exact hq x h

theorem Items.nil_iff {a : List Bytes} {ca : List (List Tok)} (h : Items a ca) : a = [] ↔ ca = [] := by
  obtain ⟨p, rfl, rfl, hp⟩ := h.ex
  constructor
  · intro h; simp only [List.map_eq_nil_iff] at h; subst h; rfl
  · intro h
    cases p with
    | nil => rfl
    | cons x p =>
      simp only [List.map_cons, List.flatten_cons, List.append_eq_nil_iff] at h
      exact absurd h.1 (hp x (List.mem_cons_self ..)).1

theorem Items.joined {sep : Bytes} (hs : R0 (44 :: sep) [.sym (chr ',')]) {a : List Bytes} {ca : List (List Tok)} (h : Items a ca) : R (SqlText.joined (44 :: sep) a) (commas ca) := by
  obtain ⟨p, rfl, rfl, hp⟩ := h.ex
  rw [← commas_groups _ (by intro g hg; obtain ⟨x, hx, rfl⟩ := List.mem_map.mp hg; exact (hp x hx).1)]
  have := R.joined hs (p.map fun x => (x.1, commas x.2)) (by intro x hx; obtain ⟨y, hy, rfl⟩ := List.mem_map.mp hx; exact (hp y hy).2)
  simpa [Function.comp_def] using this

section
variable (L : Lib) (hL : ∀ d, L.double d ≠ [] ∧ ∀ c ∈ L.double d, wordByte c = true)
include hL

theorem column_items (E : Env) (c : Column) (hn : chr '`' ∉ c.name) (ex : Option ExColumn) :
    (columnClauses E c ex = none ∧ columnItem L E c ex = none) ∨
    ∃ cs l, columnClauses E c ex = some cs ∧ columnItem L E c ex = some l ∧ Items l (cs.map (clauseTokens L.double L.zone)) := by
  unfold columnClauses columnItem
  cases ex with
  | none =>
    refine .inr ?_
    by_cases hd : c.type = .dropped
    · exact ⟨[], [], by simp [hd], by simp [hd], Items.nil⟩
    · exact ⟨[.addColumn (define c)], [b! "ADD COLUMN " ++ columnText L c], by simp [hd], by simp [hd], Items.one (R0.app (by decide) (R.column L hL c hd hn))⟩
  | some x =>
    simp only []
    cases hc : checkColumn E c x with
    | none => exact .inl ⟨rfl, rfl⟩
    | some ok =>
      refine .inr ?_
      cases ok with
      | true => exact ⟨[], [], rfl, rfl, Items.nil⟩
      | false =>
        by_cases hd : c.type = .dropped
        · refine ⟨[.dropColumn c.name], [b! "DROP COLUMN `" ++ c.name ++ b! "`"], by simp [hd], by simp [hd], ?_⟩
          have := R0.app (a := b! "DROP COLUMN ") (ta := words [b! "DROP", b! "COLUMN"]) (by decide) (R.name hn)
          exact Items.one (by simpa [clauseTokens] using this)
        · exact ⟨[.modifyColumn (define c)], [b! "MODIFY COLUMN " ++ columnText L c], by simp [hd], by simp [hd], Items.one (R0.app (by decide) (R.column L hL c hd hn))⟩

theorem columns_items (E : Env) (ex : Dict ExColumn) : ∀ cs : List Column, (∀ c ∈ cs, chr '`' ∉ c.name) →
    (allColumns E ex cs = none ∧ columnItems L E ex cs = none) ∨
    ∃ k l, allColumns E ex cs = some k ∧ columnItems L E ex cs = some l ∧ Items l (k.map (clauseTokens L.double L.zone))
  | [], _ => .inr ⟨[], [], rfl, rfl, Items.nil⟩
  | c :: cs, h => by
    unfold allColumns columnItems
    rcases column_items L hL E c (h c (List.mem_cons_self ..)) (ex c.name) with ⟨h1, h2⟩ | ⟨k, l, h1, h2, h3⟩
    · rw [h1, h2]; exact .inl ⟨rfl, rfl⟩
    · rw [h1, h2]
      rcases columns_items E ex cs (fun x hx => h x (List.mem_cons_of_mem _ hx)) with ⟨g1, g2⟩ | ⟨k', l', g1, g2, g3⟩
      · simp only [g1, g2]; exact .inl ⟨rfl, rfl⟩
      · simp only [g1, g2]
        exact .inr ⟨k ++ k', l ++ l', rfl, rfl, by rw [List.map_append]; exact h3.append g3⟩
end

theorem index_items (double : UInt64 → Bytes) (zone : Int → Int) (i : Index) (hn : chr '`' ∉ i.name) (hc : ∀ n ∈ i.columns, chr '`' ∉ n) (ex : Option ExIndex) :
    Items (indexItem i ex) ((indexClauses i ex).map (clauseTokens double zone)) := by
  have hadd : R (b! "ADD " ++ indexText i) (clauseTokens double zone (.addIndex (defineIndex i))) := R0.app (by decide) (R.index i hn hc)
  unfold indexItem indexClauses
  cases ex with
  | none =>
    by_cases hd : i.type = .dropped
    · simp only [hd, if_true]; exact Items.nil
    · simp only [hd, if_false]; exact Items.one hadd
  | some x =>
    by_cases hx : checkIndex i x = true
    · simp only [hx, if_true]; exact Items.nil
    · simp only [hx, if_false]
      have hdrop : R (if sameName i.name (b! "PRIMARY") then b! "DROP PRIMARY KEY" else b! "DROP INDEX `" ++ i.name ++ b! "`")
          (clauseTokens double zone (if sameName i.name (b! "PRIMARY") then .dropPrimaryKey else .dropIndex i.name)) := by
        split
        · exact (by decide : R (b! "DROP PRIMARY KEY") (words [b! "DROP", b! "PRIMARY", b! "KEY"]))
        · have := R0.app (a := b! "DROP INDEX ") (ta := words [b! "DROP", b! "INDEX"]) (by decide) (R.name hn)
          simpa [clauseTokens] using this
      by_cases hd : i.type = .dropped
      · simp only [hd, ne_eq, not_true_eq_false, if_false]; exact Items.one hdrop
      · simp only [ne_eq, hd, not_false_eq_true, if_true]
        have h2 := R0.app (a := b! ",\n   ") (ta := [.sym (chr ',')]) (by decide) hadd
        have h3 := R.app hdrop h2 (by decide)
        refine ⟨[(_, [clauseTokens double zone (if sameName i.name (b! "PRIMARY") then .dropPrimaryKey else .dropIndex i.name), clauseTokens double zone (.addIndex (defineIndex i))])], rfl, rfl, ?_⟩
        intro p hp
        rw [List.mem_singleton] at hp
        subst hp
        refine ⟨by simp, ?_⟩
        simpa [commas] using h3

theorem indexes_items (double : UInt64 → Bytes) (zone : Int → Int) (ex : Dict ExIndex) : ∀ is : List Index, (∀ i ∈ is, chr '`' ∉ i.name ∧ ∀ n ∈ i.columns, chr '`' ∉ n) →
    Items (is.flatMap fun i => indexItem i (ex i.name)) ((is.flatMap fun i => indexClauses i (ex i.name)).map (clauseTokens double zone))
  | [], _ => Items.nil
  | i :: is, h => by
    rw [List.flatMap_cons, List.flatMap_cons, List.map_append]
    exact (index_items double zone i (h i (List.mem_cons_self ..)).1 (h i (List.mem_cons_self ..)).2 _).append (indexes_items double zone ex is fun x hx => h x (List.mem_cons_of_mem _ hx))

end Verif.Sql
