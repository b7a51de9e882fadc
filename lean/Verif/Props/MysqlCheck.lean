import Verif.Proofs.MysqlCheck
/-!
# C45: checking a table
-/
namespace Verif.Props
open Verif.MysqlCheck

/-- C45: the check requests no alteration if and only if the table on the server is as it should be, in whatever order columns and indexes are reported. -/
theorem C45_detects (E : Env) (t : Table) (ht : Sound t) (s : Schema) (cols : List ColumnRow) (ixs : List IndexRow) (hc : ReportsColumns s cols) (hi : ReportsIndexes s ixs) :
    alter E t cols ixs = some [] ↔ Matches E t s := alter_nil E t ht.typed hc hi

/-- C45: the check does not fail. -/
theorem C45_total (E : Env) (t : Table) (ht : Sound t) (cols : List ColumnRow) (ixs : List IndexRow) : ∃ l, alter E t cols ixs = some l := by
  obtain ⟨l, hl⟩ := allColumns_some E (readColumns cols) t.columns ht.typed
  exact ⟨_, by rw [alter, hl]; rfl⟩

/-- C45 (part): after the server has applied the requested alteration, the same check requests no alteration, in whatever order columns and indexes are reported.  Missing: structures
that are not `Sound`, nullable columns in a primary key, and servers that are not `Faithful`, for some of which it does not hold: see the theorems below. -/
theorem C45_converges_partial (E : Env) (S : Server) (hf : Faithful E S) (t : Table) (ht : Sound t) (s : Schema) (cols : List ColumnRow) (ixs : List IndexRow) (hc : ReportsColumns s cols)
    (hi : ReportsIndexes s ixs) (l : List Clause) (hl : alter E t cols ixs = some l)
    (hn : ∀ c ∈ t.columns, c.nullable = true → c.type = .autoIncrement ∨ ((S.apply s l).indexes primary).any (·.columns.any (sameName c.name)) = false)
    (cols' : List ColumnRow) (ixs' : List IndexRow) (hc' : ReportsColumns (S.apply s l) cols') (hi' : ReportsIndexes (S.apply s l) ixs') : alter E t cols' ixs' = some [] :=
  (alter_nil E t ht.typed hc' hi').2 (matches_after hf ht hc hi hl hn)

/-- C45 (part): a table that has been created by the check is not altered by it. -/
theorem C45_created_partial (E : Env) (S : Server) (hf : Faithful E S) (t : Table) (ht : Sound t)
    (hn : ∀ c ∈ t.columns, c.nullable = true → c.type = .autoIncrement ∨ ((S.created (create t)).indexes primary).any (·.columns.any (sameName c.name)) = false)
    (cols : List ColumnRow) (ixs : List IndexRow) (hc : ReportsColumns (S.created (create t)) cols) (hi : ReportsIndexes (S.created (create t)) ixs) : alter E t cols ixs = some [] :=
  (alter_nil E t ht.typed hc hi).2 (matches_created hf ht hn)

/-- C45: every part of the alteration is needed: it is about a column or an index of the structure that is not as it should be.  In particular, a column is dropped only if the structure
says so. -/
theorem C45_needed (E : Env) (t : Table) (ht : Sound t) (s : Schema) (cols : List ColumnRow) (ixs : List IndexRow) (hc : ReportsColumns s cols) (hi : ReportsIndexes s ixs) (l : List Clause)
    (hl : alter E t cols ixs = some l) : ∀ x ∈ l, Needed E t s x := needed ht hc hi hl

/-- C45: a column that the structure does not mention, or that is as it should be, is left as it is, whatever the server is; except that a server makes columns of a primary key `NOT NULL`. -/
theorem C45_other_columns (E : Env) (S : Server) (t : Table) (ht : Sound t) (s : Schema) (cols : List ColumnRow) (ixs : List IndexRow) (hc : ReportsColumns s cols) (hi : ReportsIndexes s ixs)
    (l : List Clause) (hl : alter E t cols ixs = some l) (n : Bytes) (hn : ∀ c ∈ t.columns, c.name = n → ColumnMatches E c (s.columns n))
    (hp : ((S.apply s l).indexes primary).any (·.columns.any (sameName n)) = false) : (S.apply s l).columns n = s.columns n := by
  have h := fold_column S hn l s (needed ht hc hi hl)
  have hp' : ((l.foldl S.clause s).indexes primary).any (·.columns.any (sameName n)) = false := hp
  show ((l.foldl S.clause s).columns n).map _ = _
  rw [h, hp']
  cases s.columns n <;> rfl

/-- C45: an index that the structure does not mention, or that is as it should be, is left as it is, unless one of its columns is to be dropped. -/
theorem C45_other_indexes (E : Env) (S : Server) (t : Table) (ht : Sound t) (s : Schema) (cols : List ColumnRow) (ixs : List IndexRow) (hc : ReportsColumns s cols) (hi : ReportsIndexes s ixs)
    (l : List Clause) (hl : alter E t cols ixs = some l) (n : Bytes) (hn : ∀ i ∈ t.indexes, i.name = n → IndexMatches i (s.indexes n))
    (hd : ∀ x, s.indexes n = some x → ∀ k ∈ x.columns, ∀ c ∈ t.columns, c.type = .dropped → sameName k c.name = false) : (S.apply s l).indexes n = s.indexes n :=
  fold_index S hn (fun x hx => ⟨hi.2.2 n x hx, hd x hx⟩) l s (needed ht hc hi hl) rfl

/-! ### Examples -/

/-- An environment where integers are tallies, and doubles are eight bytes. -/
def demoCheckEnv : Env where
  parseInt s := match s with
    | 45 :: t => -(t.length : Int)
    | t => t.length
  parseDouble s := UInt64.ofNat (beNat s)
  deq a b := a = b
  printTime _ := b! "1994-11-06 08:49:37 +0000"

/-- A server for this environment; older ones report display widths. -/
def demoServer (old : Bool) : Server where
  showType t := if !old then t else if t = b! "tinyint" then b! "tinyint(4)" else if t = b! "int" then b! "int(11)" else if t = b! "bigint" then b! "bigint(20)" else t
  showDefault _ v := match v with
    | .integer n => .blob (if n < 0 then 45 :: List.replicate n.natAbs 49 else List.replicate n.natAbs 49)
    | .double d => .blob (beBytes 8 d.toNat)
    | .datetime _ => .blob (b! "1994-11-06 08:49:37.000000")
    | v => v
  showName n := n

theorem demoServer_faithful : Faithful demoCheckEnv (demoServer false) where
  varchar := rfl
  tinyint := .inr rfl
  int := .inr rfl
  bigint := .inr rfl
  double := rfl
  longblob := rfl
  datetime := rfl
  ofBlob _ _ := rfl
  ofInteger _ n := by
    refine ⟨_, rfl, ?_⟩
    by_cases h : n < 0
    · simp only [if_pos h, demoCheckEnv, List.length_replicate]; omega
    · simp only [if_neg h, demoCheckEnv]
      split
      · rename_i t ht
        have : (45 : Byte) ∈ List.replicate n.natAbs (49 : Byte) := ht ▸ List.mem_cons_self ..
        exact absurd (List.mem_replicate.1 this).2 (by decide)
      · rw [List.length_replicate]; omega
  ofDouble _ d _ := by
    refine ⟨_, rfl, ?_⟩
    simp only [demoCheckEnv, decide_eq_true_eq]
    rw [beNat_beBytes, Nat.mod_eq_of_lt (by have := d.toNat_lt; omega)]
    simp
  ofTime _ ns := ⟨_, rfl, rfl⟩
  name n := by simp [sameName, demoServer]

def demoTable : Table where
  columns := [⟨b! "id", .autoIncrement, false, .null⟩, ⟨b! "name", .varchar, false, .blob (b! "x")⟩, ⟨b! "flag", .bool, true, .integer 1⟩, ⟨b! "old", .dropped, false, .null⟩, ⟨b! "born", .datetime, true, .null⟩]
  indexes := [⟨b! "PRIMARY", .unique, [b! "ID"]⟩, ⟨b! "by_name", .multi, [b! "name", b! "flag"]⟩, ⟨b! "gone", .dropped, []⟩]

/-- The rows for a table that differs in the type of `name`, in the order of the columns of `by_name`, that has `old` and `gone`, and no `born`. -/
def demoColumns : List ColumnRow :=
  [⟨b! "id", b! "bigint", b! "NO", .null, b! "auto_increment"⟩, ⟨b! "name", b! "text", b! "YES", .null, []⟩, ⟨b! "flag", b! "tinyint", b! "YES", .blob (b! "1"), []⟩, ⟨b! "old", b! "int", b! "NO", .null, []⟩]
def demoIndexes : List IndexRow :=
  [⟨b! "PRIMARY", 0, 1, b! "id"⟩, ⟨b! "by_name", 1, 2, b! "name"⟩, ⟨b! "by_name", 1, 1, b! "flag"⟩, ⟨b! "gone", 0, 1, b! "old"⟩]

theorem demoTable_sound : Sound demoTable where
  typed := by decide
  columns := by decide
  indexes := by decide
  primary := by decide
  nonempty := by decide
  present := by decide

/-- The table of these rows. -/
def demoSchema : Schema where
  columns := readColumns demoColumns
  indexes := readIndexes demoIndexes

theorem demoSchema_columns : ReportsColumns demoSchema demoColumns := by
  refine ⟨by decide +kernel, ?_⟩
  intro n x h
  have := readColumns_aux (fun r => { type := r.type, nullable := r.null = b! "YES", default := r.default, extra := r.extra }) demoColumns (fun _ => none) n
  rw [show demoSchema.columns n = _ from this] at h
  cases hf : demoColumns.reverse.find? (·.field = n) with
  | none => rw [hf] at h; exact nomatch h
  | some r => exact ⟨r, by simpa using List.mem_of_find?_eq_some hf, by simpa using List.find?_some hf⟩

theorem demoSchema_index {n : Bytes} {x : ExIndex} (h : demoSchema.indexes n = some x) :
    (n = b! "PRIMARY" ∧ x = ⟨false, [b! "id"]⟩) ∨ (n = b! "by_name" ∧ x = ⟨true, [b! "flag", b! "name"]⟩) ∨ (n = b! "gone" ∧ x = ⟨false, [b! "old"]⟩) := by
  simp only [demoSchema, readIndexes, demoIndexes, List.foldl_cons, List.foldl_nil, Dict.put] at h
  by_cases h1 : n = b! "gone"
  · subst h1; revert h; simp [resize]
    intro h; exact h.symm
  · by_cases h2 : n = b! "by_name"
    · subst h2; revert h; simp [resize]
      intro h; exact h.symm
    · by_cases h3 : n = b! "PRIMARY"
      · subst h3; revert h; simp [resize]
        intro h; exact h.symm
      · simp [h1, h2, h3] at h

theorem demoSchema_indexes : ReportsIndexes demoSchema demoIndexes := by
  refine ⟨?_, ?_, ?_⟩
  · intro r hr
    simp only [demoIndexes, List.mem_cons, List.not_mem_nil, or_false] at hr
    rcases hr with rfl | rfl | rfl | rfl
    · exact ⟨⟨false, [b! "id"]⟩, by decide +kernel⟩
    · exact ⟨⟨true, [b! "flag", b! "name"]⟩, by decide +kernel⟩
    · exact ⟨⟨true, [b! "flag", b! "name"]⟩, by decide +kernel⟩
    · exact ⟨⟨false, [b! "old"]⟩, by decide +kernel⟩
  · intro n x h i hi
    rcases demoSchema_index h with ⟨rfl, rfl⟩ | ⟨rfl, rfl⟩ | ⟨rfl, rfl⟩
    · have : i = 0 := by simp at hi; omega
      subst this; decide
    · have : i = 0 ∨ i = 1 := by simp at hi; omega
      rcases this with rfl | rfl <;> decide
    · have : i = 0 := by simp at hi; omega
      subst this; decide
  · intro n x h
    rcases demoSchema_index h with ⟨rfl, rfl⟩ | ⟨rfl, rfl⟩ | ⟨rfl, rfl⟩ <;> simp

/-- Non-vacuity: the statement, and the check after it; no nullable column is in the primary key. -/
example : alter demoCheckEnv demoTable demoColumns demoIndexes = some
    [.modifyColumn ⟨b! "name", b! "varchar(255)", false, true, some (.blob (b! "x"))⟩, .dropColumn (b! "old"), .addColumn ⟨b! "born", b! "datetime(6)", false, false, none⟩,
     .dropIndex (b! "by_name"), .addIndex ⟨some (b! "by_name"), false, [b! "name", b! "flag"]⟩, .dropIndex (b! "gone")] ∧
    alter demoCheckEnv demoTable
      [⟨b! "id", b! "bigint", b! "NO", .null, b! "auto_increment"⟩, ⟨b! "name", b! "varchar(255)", b! "NO", .blob (b! "x"), []⟩, ⟨b! "flag", b! "tinyint", b! "YES", .blob (b! "1"), []⟩,
       ⟨b! "born", b! "datetime(6)", b! "YES", .null, []⟩]
      [⟨b! "PRIMARY", 0, 1, b! "id"⟩, ⟨b! "by_name", 1, 1, b! "name"⟩, ⟨b! "by_name", 1, 2, b! "flag"⟩] = some [] ∧
    (∀ l, alter demoCheckEnv demoTable demoColumns demoIndexes = some l →
      ∀ c ∈ demoTable.columns, c.nullable = true → c.type = .autoIncrement ∨ (((demoServer false).apply demoSchema l).indexes primary).any (·.columns.any (sameName c.name)) = false) := by
  refine ⟨by decide +kernel, by decide +kernel, ?_⟩
  intro l hl
  have e : alter demoCheckEnv demoTable demoColumns demoIndexes = some [.modifyColumn ⟨b! "name", b! "varchar(255)", false, true, some (.blob (b! "x"))⟩, .dropColumn (b! "old"), .addColumn ⟨b! "born", b! "datetime(6)", false, false, none⟩,
     .dropIndex (b! "by_name"), .addIndex ⟨some (b! "by_name"), false, [b! "name", b! "flag"]⟩, .dropIndex (b! "gone")] := by decide +kernel
  rw [e] at hl
  cases hl
  decide +kernel

/-- Non-vacuity: in this alteration, the column `flag` and the primary key are left as they are; `mine` is a column that the structure does not mention. -/
example : (∀ c ∈ demoTable.columns, c.name = b! "flag" → ColumnMatches demoCheckEnv c (demoSchema.columns (b! "flag"))) ∧
    (∀ i ∈ demoTable.indexes, i.name = primary → IndexMatches i (demoSchema.indexes primary)) ∧
    (∀ x, demoSchema.indexes primary = some x → ∀ k ∈ x.columns, ∀ c ∈ demoTable.columns, c.type = .dropped → sameName k c.name = false) ∧
    (∀ c ∈ demoTable.columns, c.name ≠ b! "mine") ∧
    (∀ l, alter demoCheckEnv demoTable demoColumns demoIndexes = some l → ((((demoServer false).apply demoSchema l).indexes primary).any (·.columns.any (sameName (b! "flag"))) = false ∧
      ((demoServer false).apply demoSchema l).columns (b! "flag") = some ⟨b! "tinyint", true, .blob (b! "1"), []⟩)) := by
  refine ⟨?_, ?_, ?_, by decide, ?_⟩
  · intro c hc e
    have : c = ⟨b! "flag", .bool, true, .integer 1⟩ := by
      revert e; revert c; decide
    subst this
    have hs : demoSchema.columns (b! "flag") = some ⟨b! "tinyint", true, .blob (b! "1"), []⟩ := by decide +kernel
    rw [hs]
    refine ⟨by decide, by decide, ?_⟩
    rw [if_neg (by decide)]
    exact ⟨rfl, rfl, _, rfl, by decide⟩
  · intro i hi e
    have : i = ⟨b! "PRIMARY", .unique, [b! "ID"]⟩ := by
      revert e; revert i; decide
    subst this
    have hs : demoSchema.indexes primary = some ⟨false, [b! "id"]⟩ := by decide +kernel
    rw [hs]
    exact ⟨by decide, by decide, by decide⟩
  · intro x hx
    have hs : demoSchema.indexes primary = some ⟨false, [b! "id"]⟩ := by decide +kernel
    rw [hs] at hx
    cases hx
    decide
  · intro l hl
    have e : alter demoCheckEnv demoTable demoColumns demoIndexes = some [.modifyColumn ⟨b! "name", b! "varchar(255)", false, true, some (.blob (b! "x"))⟩, .dropColumn (b! "old"), .addColumn ⟨b! "born", b! "datetime(6)", false, false, none⟩,
       .dropIndex (b! "by_name"), .addIndex ⟨some (b! "by_name"), false, [b! "name", b! "flag"]⟩, .dropIndex (b! "gone")] := by decide +kernel
    rw [e] at hl
    cases hl
    exact ⟨by decide +kernel, by decide +kernel⟩

/-! ### Where it does not hold -/

/-- C45 does not hold for an index with the name `PRIMARY` that is declared as not unique: the table is altered by every check, whatever the server reports for a primary key. -/
theorem C45_primary_multi (E : Env) (S : Server) (ks : List Bytes) (ixs : List IndexRow) (s : Schema) (hx : s.indexes primary = some (S.index (defineIndex ⟨primary, .multi, ks⟩)))
    (hi : ReportsIndexes s ixs) : alter E ⟨[], [⟨primary, .multi, ks⟩]⟩ [] ixs = some [.dropPrimaryKey, .addIndex ⟨none, true, ks⟩] := by
  unfold alter
  rw [readIndexes_eq hi]
  simp only [allColumns, Option.map_some, List.flatMap_cons, List.flatMap_nil, List.append_nil, List.nil_append, hx]
  have hp : sameName primary (b! "PRIMARY") = true := by decide
  simp [indexClauses, checkIndex, Server.index, defineIndex, hp]

/-- C45 does not hold for a primary key whose name is not in upper case: it is taken for a primary key when it is created, but it is not found, so the program tries to add another
primary key, which the server rejects. -/
theorem C45_primary_case (E : Env) : alter E ⟨[], [⟨b! "primary", .unique, [b! "id"]⟩]⟩ [] [⟨b! "PRIMARY", 0, 1, b! "id"⟩] = some [.addIndex ⟨none, true, [b! "id"]⟩] := rfl

/-- C45 does not hold for a column that is nullable and in the primary key: the server makes it `NOT NULL`, and every check tries to make it nullable. -/
theorem C45_primary_nullable (S : Server) (hs : S.showType (b! "int") = b! "int") (hn : S.showName = id) (E : Env) :
    (S.apply {} [.addColumn (define ⟨b! "k", .int, true, .null⟩), .addIndex (defineIndex ⟨primary, .unique, [b! "k"]⟩)]).columns (b! "k") = some ⟨b! "int", false, .null, []⟩ ∧
    alter E ⟨[⟨b! "k", .int, true, .null⟩], [⟨primary, .unique, [b! "k"]⟩]⟩ [⟨b! "k", b! "int", b! "NO", .null, []⟩] [⟨primary, 0, 1, b! "k"⟩] =
      some [.modifyColumn (define ⟨b! "k", .int, true, .null⟩)] := by
  constructor
  · simp [Server.apply, primaryNotNull, Server.clause, Dict.put, Server.column, Server.index, define, defineIndex, typeText, hs, hn, primary, sameName]
  · rfl

/-- C45 does not hold for servers that report display widths, such as MySQL 5.7 and MariaDB: there, the width of `tinyint` is 4, but the program expects 1; every check alters
the table. -/
theorem C45_display_width (E : Env) : ((demoServer true).column (define ⟨b! "b", .bool, false, .null⟩)).type = b! "tinyint(4)" ∧
    alter E ⟨[⟨b! "b", .bool, false, .null⟩], []⟩ [⟨b! "b", b! "tinyint(4)", b! "NO", .null, []⟩] [] = some [.modifyColumn (define ⟨b! "b", .bool, false, .null⟩)] := ⟨rfl, rfl⟩

/-- C45 does not hold for a default that is not a number: it is written as `NULL`, so the server reports no default. -/
theorem C45_nan (E : Env) : alter E ⟨[⟨b! "d", .double, true, .double 0x7FF8000000000000⟩], []⟩ [⟨b! "d", b! "double", b! "YES", .null, []⟩] [] =
    some [.modifyColumn (define ⟨b! "d", .double, true, .double 0x7FF8000000000000⟩)] := rfl

/-- If a name is spelt differently on the server, then the column is not found, although to the server it is the same, which rejects the statement. -/
theorem C45_column_case (E : Env) : alter E ⟨[⟨b! "name", .int, false, .null⟩], []⟩ [⟨b! "Name", b! "int", b! "NO", .null, []⟩] [] = some [.addColumn (define ⟨b! "name", .int, false, .null⟩)] := rfl

/-- The check throws an exception if a default value is not of the type of the column, but only if the column exists already. -/
theorem C45_type_error (E : Env) : alter E ⟨[⟨b! "n", .int, false, .blob (b! "1")⟩], []⟩ [⟨b! "n", b! "int", b! "NO", .blob (b! "1"), []⟩] [] = none := rfl

end Verif.Props
