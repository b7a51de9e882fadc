import Verif.Proofs.SqlText
/-!
# C109: the texts of statements that check a MySQL table
-/
namespace Verif.Props
open Verif.MysqlCheck Verif.SqlText Verif.Sql

/-- C109 (part): the first statement says to create a table with this name, with the columns that are not dropped and the indexes that are not dropped, with this engine, and nothing else, whatever their default
values are; in particular, no string can end its literal.  Missing: names with backticks, for which it does not hold, see `C109_violated`. -/
theorem C109_create_partial (L : Lib) (hL : PrintsDoubles L.double) (name : Bytes) (e : Engine) (t : Table) (hp : Plain name t) (hc : ∃ c ∈ t.columns, c.type ≠ .dropped) :
    tokens (createText L name e t) = some (createTokens L.double L.zone name e ((t.columns.filter (·.type ≠ .dropped)).map define) ((t.indexes.filter (·.type ≠ .dropped)).map defineIndex)
      ((t.columns.filter fun c => c.type = .autoIncrement ∧ c.default ≠ .null).map (·.default))) := by
  obtain ⟨hp1, hp2, hp3⟩ := hp
  refine R.tokens ?_
  have h1 : R0 (b! "CREATE TABLE IF NOT EXISTS ") (words [b! "CREATE", b! "TABLE", b! "IF", b! "NOT", b! "EXISTS"]) := by decide
  have h2 := h1.app (R.name hp1)
  have hcols := R.joined (sep := b! "\n   ") (by decide) ((t.columns.filter (·.type ≠ .dropped)).map fun c => (columnText L c, columnTokens L.double L.zone (define c))) (by
    intro p hm
    obtain ⟨c, hf, rfl⟩ := List.mem_map.mp hm
    have hm := List.mem_filter.mp hf
    exact R.column L hL c (by simpa using hm.2) (hp2 c hm.1))
  have hall := R.items (sep := b! "\n   ") (by decide) ((t.indexes.filter (·.type ≠ .dropped)).map fun i => (indexText i, indexTokens (defineIndex i))) (by
    intro p hm
    obtain ⟨i, hf, rfl⟩ := List.mem_map.mp hm
    have hm := List.mem_filter.mp hf
    exact R.index i (hp3 i hm.1).1 (hp3 i hm.1).2) hcols
  have h3 := R.app h2 (R0.app (a := b! "\n  (") (ta := [.sym (chr '(')]) (by decide) hall) (by decide)
  have heng : R (b! ")\n  " ++ engineText e) ([.sym (chr ')')] ++ equals (b! "ENGINE") [.str (engineName e)]) := by cases e <;> decide
  have h4 := R.app h3 heng (by decide)
  have h5 := R.app h4 (by decide : R (b! ",\n  CHARSET = 'utf8mb4'") ([.sym (chr ',')] ++ equals (b! "CHARSET") [.str (b! "utf8mb4")])) (by decide)
  have h6 := R.items (sep := b! "\n  ") (by decide) ((t.columns.filter fun c => c.type = .autoIncrement ∧ c.default ≠ .null).map fun c =>
      (b! "AUTO_INCREMENT = " ++ valueText L c.default, equals (b! "AUTO_INCREMENT") (valueTokens L.double L.zone c.default))) (by
    intro p hm
    obtain ⟨c, hm, rfl⟩ := List.mem_map.mp hm
    exact R0.app (by decide : R0 (b! "AUTO_INCREMENT = ") [.word (b! "AUTO_INCREMENT"), .sym (chr '=')]) (R.value L hL c.default)) h5
  have hne : (t.columns.filter (·.type ≠ .dropped)).map (fun c => columnTokens L.double L.zone (define c)) ≠ [] := by
    obtain ⟨c, hm, hd⟩ := hc
    intro he
    simp only [List.map_eq_nil_iff] at he
    have : c ∈ t.columns.filter (·.type ≠ .dropped) := by simp [hm, hd]
    rw [he] at this
    cases this
  have e1 := commas_append hne ((t.indexes.filter (·.type ≠ .dropped)).map fun i => indexTokens (defineIndex i))
  unfold createText createTokens
  simp only [List.map_map, Function.comp_def, parens, commas_cons] at h6 e1 ⊢
  rw [e1]
  simpa [List.flatMap_map] using h6

/-- C109 (part): the last statement says to alter this table by the clauses that C45 is about, in this order, and nothing else; it is executed if and only if there are any.  Missing: as above. -/
theorem C109_alter_partial (L : Lib) (hL : PrintsDoubles L.double) (E : Env) (name : Bytes) (t : Table) (hp : Plain name t) (cols : List ColumnRow) (ixs : List IndexRow) :
    match alter E t cols ixs with
    | none => alterText L E name t cols ixs = none
    | some [] => alterText L E name t cols ixs = some none
    | some cs => ∃ text, alterText L E name t cols ixs = some (some text) ∧
        tokens text = some (words [b! "ALTER", b! "TABLE"] ++ [.name name] ++ commas (cs.map (clauseTokens L.double L.zone))) := by
  obtain ⟨hp1, hp2, hp3⟩ := hp
  unfold alter alterText
  rcases columns_items L hL E (readColumns cols) t.columns hp2 with ⟨h1, h2⟩ | ⟨k, l, h1, h2, h3⟩
  · rw [h1, h2]; rfl
  · rw [h1, h2]
    simp only [Option.map_some]
    have hi := h3.append (indexes_items L.double L.zone (readIndexes ixs) t.indexes hp3)
    rw [← List.map_append] at hi
    generalize hcs : k ++ t.indexes.flatMap (fun i => indexClauses i (readIndexes ixs i.name)) = cs at hi ⊢
    generalize hls : l ++ t.indexes.flatMap (fun i => indexItem i (readIndexes ixs i.name)) = items at hi ⊢
    have hnil := hi.nil_iff
    simp only [List.map_eq_nil_iff] at hnil
    cases cs with
    | nil => simp only [hnil.mpr rfl, if_true]
    | cons c cs =>
      have hne : ¬ items = [] := by rw [hnil]; simp
      simp only [hne, if_false]
      refine ⟨_, rfl, ?_⟩
      refine R.tokens ?_
      have h1 : R0 (b! "ALTER TABLE ") (words [b! "ALTER", b! "TABLE"]) := by decide
      have h2 := h1.app (R.name hp1)
      have h4 := R.app h2 (R0.app (a := b! "\n  ") (ta := []) (by decide) (hi.joined (sep := b! "\n  ") (by decide))) (by decide)
      simpa using h4

/-- C109 (part): the other statements ask for the columns and the indexes of this table. -/
theorem C109_show_partial (name : Bytes) (hp : chr '`' ∉ name) :
    tokens (showText (b! "COLUMNS") name) = some (words [b! "SHOW", b! "COLUMNS", b! "FROM"] ++ [.name name]) ∧
    tokens (showText (b! "INDEXES") name) = some (words [b! "SHOW", b! "INDEXES", b! "FROM"] ++ [.name name]) := by
  constructor <;> refine R.tokens ?_ <;> unfold showText
  · have := R0.app (a := b! "SHOW COLUMNS FROM ") (ta := words [b! "SHOW", b! "COLUMNS", b! "FROM"]) (by decide) (R.name hp)
    simpa using this
  · have := R0.app (a := b! "SHOW INDEXES FROM ") (ta := words [b! "SHOW", b! "INDEXES", b! "FROM"]) (by decide) (R.name hp)
    simpa using this

def demoCheckSqlEnv : Env where
  parseInt s := s.length
  parseDouble _ := 0
  deq a b := a = b
  printTime _ := b! "1994-11-06 08:49:37 +0000"

/-- A table whose texts are as nasty as they can be without backticks. -/
def nastyTable : Table where
  columns := [⟨b! "id", .autoIncrement, false, .integer 100⟩, ⟨b! "na'me", .varchar, false, .blob (b! "x', 'y\\")⟩, ⟨b! "n", .int, true, .integer (-5)⟩, ⟨b! "old", .dropped, false, .null⟩,
    ⟨b! "at", .datetime, false, .datetime 784111777000000000⟩]
  indexes := [⟨b! "primary", .unique, [b! "id"]⟩, ⟨b! "by name", .multi, [b! "na'me", b! "n"]⟩]

def demoSqlLib : Lib where
  double _ := b! "1.5"
  zone _ := 0

/-- Non-vacuity: the statements for this table. -/
example : Plain (b! "t") nastyTable ∧ PrintsDoubles demoSqlLib.double ∧ createText demoSqlLib (b! "t") .innodb nastyTable =
    b! "CREATE TABLE IF NOT EXISTS `t`\n  (`id` bigint AUTO_INCREMENT NOT NULL,\n   `na'me` varchar(255) NOT NULL DEFAULT 'x\\', \\'y\\\\',\n   `n` int DEFAULT -5,\n   `at` datetime(6) NOT NULL DEFAULT '1994-11-06 08:49:37',\n   PRIMARY KEY (`id`),\n   INDEX `by name` (`na'me`, `n`))\n  ENGINE = 'InnoDB',\n  CHARSET = 'utf8mb4',\n  AUTO_INCREMENT = 100" := by
  refine ⟨by unfold Plain; decide, ?_, by decide +kernel⟩
  intro d; show b! "1.5" ≠ [] ∧ ∀ c ∈ b! "1.5", _
  decide

example : alterText demoSqlLib demoCheckSqlEnv (b! "t") nastyTable
    [⟨b! "id", b! "bigint", b! "NO", .null, b! "auto_increment"⟩, ⟨b! "na'me", b! "text", b! "NO", .null, []⟩, ⟨b! "n", b! "int", b! "NO", .null, []⟩, ⟨b! "old", b! "int", b! "NO", .null, []⟩]
    [⟨b! "primary", 0, 1, b! "id"⟩, ⟨b! "by name", 1, 1, b! "n"⟩] =
    some (some (b! "ALTER TABLE `t`\n  MODIFY COLUMN `na'me` varchar(255) NOT NULL DEFAULT 'x\\', \\'y\\\\',\n  MODIFY COLUMN `n` int DEFAULT -5,\n  DROP COLUMN `old`,\n  ADD COLUMN `at` datetime(6) NOT NULL DEFAULT '1994-11-06 08:49:37',\n  DROP INDEX `by name`,\n   ADD INDEX `by name` (`na'me`, `n`)")) := by decide +kernel

/-- C109 is violated: backticks in names are not doubled, so that a name may be the end of one clause and the beginning of another. -/
theorem C109_violated : ∃ (t : Table) (text : Bytes), (∀ c ∈ t.columns, c.type = .int) ∧ alterText demoSqlLib demoCheckSqlEnv (b! "t") t [⟨b! "b", b! "int", b! "NO", .null, []⟩] [] = some (some text) ∧
    alter demoCheckSqlEnv t [⟨b! "b", b! "int", b! "NO", .null, []⟩] [] = some [.addColumn ⟨b! "a` int, DROP COLUMN `b`, ADD COLUMN `c", b! "int", false, true, none⟩] ∧
    tokens text = tokens (b! "ALTER TABLE `t` ADD COLUMN `a` int, DROP COLUMN `b`, ADD COLUMN `c` int NOT NULL") :=
  ⟨⟨[⟨b! "a` int, DROP COLUMN `b`, ADD COLUMN `c", .int, false, .null⟩], []⟩, b! "ALTER TABLE `t`\n  ADD COLUMN `a` int, DROP COLUMN `b`, ADD COLUMN `c` int NOT NULL", by simp, by decide +kernel,
    by decide +kernel, by decide +kernel⟩

end Verif.Props
