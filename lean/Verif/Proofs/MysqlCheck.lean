import Verif.Spec.MysqlCheck
namespace Verif.MysqlCheck

/-! ## Reading rows -/

theorem readColumns_aux (g : ColumnRow → ExColumn) : ∀ (rows : List ColumnRow) (d : Dict ExColumn) (n : Bytes),
    (rows.foldl (fun (d : Dict ExColumn) (r : ColumnRow) => d.put r.field (g r)) d) n = ((rows.reverse.find? (·.field = n)).map g).or (d n)
  | [], d, n => by simp
  | r :: rows, d, n => by
    rw [List.foldl_cons, readColumns_aux g rows]
    rw [List.reverse_cons, List.find?_append]
    cases h : rows.reverse.find? (·.field = n) with
    | some x => simp
    | none =>
      by_cases hn : n = r.field
      · simp [Dict.put, hn]
      · have : ¬r.field = n := fun e => hn e.symm
        simp [Dict.put, hn, this]

theorem readColumns_eq {s : Schema} {rows : List ColumnRow} (h : ReportsColumns s rows) : readColumns rows = s.columns := by
  funext n
  unfold readColumns
  rw [readColumns_aux (fun r => { type := r.type, nullable := r.null = b! "YES", default := r.default, extra := r.extra })]
  cases hf : rows.reverse.find? (·.field = n) with
  | some r =>
    have hm : r ∈ rows := by simpa using List.mem_of_find?_eq_some hf
    have hn : r.field = n := by simpa using List.find?_some hf
    have := h.1 r hm
    rw [hn] at this
    rw [this]; simp
  | none =>
    rw [List.find?_eq_none] at hf
    cases hc : s.columns n with
    | none => rfl
    | some x =>
      obtain ⟨r, hr, hn⟩ := h.2 n x hc
      exact absurd hn (by simpa using hf r (by simpa using hr))

/-- What has been read of an index agrees with the index. -/
def Agrees (x : ExIndex) (seen : List Nat) (y : ExIndex) : Prop :=
  y.multi = x.multi ∧ y.columns.length ≤ x.columns.length ∧ ∀ j, j + 1 ∈ seen → y.columns[j]? = x.columns[j]? ∧ j < x.columns.length

theorem resize_length (l : List Bytes) (n : Nat) : (resize l n).length = n := by
  unfold resize; rw [List.length_append, List.length_take, List.length_replicate]; omega

theorem resize_get {l : List Bytes} {n j : Nat} (h : l.length ≤ n) (hj : j < l.length) : (resize l n)[j]? = l[j]? := by
  unfold resize; rw [List.take_of_length_le h, List.getElem?_append_left hj]

theorem readIndexes_inv {s : Schema} : ∀ (rows : List IndexRow) (d : Dict ExIndex) (seen : Bytes → List Nat),
    (∀ r ∈ rows, ∃ x, s.indexes r.keyName = some x ∧ x.multi = decide (r.nonUnique ≠ 0) ∧ 1 ≤ r.seqInIndex ∧ x.columns[r.seqInIndex - 1]? = some r.columnName) →
    (∀ n, match d n with | none => seen n = [] | some y => seen n ≠ [] ∧ ∃ x, s.indexes n = some x ∧ Agrees x (seen n) y) →
    let d' := rows.foldl (fun (d : Dict ExIndex) (r : IndexRow) =>
      let old := (d r.keyName).getD { multi := false, columns := [] }
      d.put r.keyName { multi := decide (r.nonUnique ≠ 0), columns := (resize old.columns (max old.columns.length r.seqInIndex)).set (r.seqInIndex - 1) r.columnName }) d
    ∀ n, match d' n with
      | none => seen n = [] ∧ ∀ r ∈ rows, r.keyName ≠ n
      | some y => ∃ x sn, s.indexes n = some x ∧ sn ≠ [] ∧ Agrees x sn y ∧ (∀ r ∈ rows, r.keyName = n → r.seqInIndex ∈ sn) ∧ ∀ j ∈ seen n, j ∈ sn
  | [], d, seen, _, hd => by
    intro d' n
    have := hd n
    show match d n with | none => _ | some y => _
    cases hn : d n with
    | none => rw [hn] at this; exact ⟨this, by simp⟩
    | some y =>
      rw [hn] at this
      obtain ⟨h1, x, hx, ha⟩ := this
      exact ⟨x, seen n, hx, h1, ha, by simp, fun j hj => hj⟩
  | r :: rows, d, seen, hr, hd => by
    intro d' n
    obtain ⟨x, hx, hmu, h1, hc⟩ := hr r (List.mem_cons_self ..)
    have hlen : r.seqInIndex - 1 < x.columns.length := by
      rcases Nat.lt_or_ge (r.seqInIndex - 1) x.columns.length with h | h
      · exact h
      · rw [List.getElem?_eq_none h] at hc; exact nomatch hc
    have ih := readIndexes_inv rows
      (d.put r.keyName { multi := decide (r.nonUnique ≠ 0), columns := (resize ((d r.keyName).getD { multi := false, columns := [] }).columns (max ((d r.keyName).getD { multi := false, columns := [] }).columns.length r.seqInIndex)).set (r.seqInIndex - 1) r.columnName })
      (fun n => if n = r.keyName then r.seqInIndex :: seen n else seen n) (fun q hq => hr q (List.mem_cons_of_mem _ hq)) (by
        intro m
        by_cases hm : m = r.keyName
        · subst hm
          simp only [Dict.put, if_true]
          refine ⟨by simp, x, hx, hmu.symm, ?_, ?_⟩
          · rw [List.length_set, resize_length]
            have := hd r.keyName
            cases hk : d r.keyName with
            | none => simp; omega
            | some y =>
              rw [hk] at this
              obtain ⟨_, x', hx', ha⟩ := this
              rw [hx] at hx'; cases hx'
              have := ha.2.1
              simp; omega
          · intro j hj
            by_cases hjr : j + 1 = r.seqInIndex
            · have : j = r.seqInIndex - 1 := by omega
              subst this
              refine ⟨?_, hlen⟩
              rw [hc, List.getElem?_set_self]
              rw [resize_length]
              omega
            · have hj' : j + 1 ∈ seen r.keyName := by
                rcases List.mem_cons.1 hj with h | h
                · exact absurd h hjr
                · exact h
              have := hd r.keyName
              cases hk : d r.keyName with
              | none => rw [hk] at this; rw [this] at hj'; exact nomatch hj'
              | some y =>
                rw [hk] at this
                obtain ⟨_, x', hx', ha⟩ := this
                rw [hx] at hx'; cases hx'
                obtain ⟨e, hl⟩ := ha.2.2 j hj'
                refine ⟨?_, hl⟩
                have hly : j < y.columns.length := by
                  rcases Nat.lt_or_ge j y.columns.length with h | h
                  · exact h
                  · rw [List.getElem?_eq_none h, List.getElem?_eq_getElem hl] at e; exact nomatch e
                rw [List.getElem?_set_ne (by omega), Option.getD_some, resize_get (by omega) hly, e]
        · simp only [Dict.put, if_neg hm]
          exact hd m) n
    have hfold : d' = rows.foldl (fun (d : Dict ExIndex) (r : IndexRow) =>
      let old := (d r.keyName).getD { multi := false, columns := [] }
      d.put r.keyName { multi := decide (r.nonUnique ≠ 0), columns := (resize old.columns (max old.columns.length r.seqInIndex)).set (r.seqInIndex - 1) r.columnName }) (d.put r.keyName { multi := decide (r.nonUnique ≠ 0), columns := (resize ((d r.keyName).getD { multi := false, columns := [] }).columns (max ((d r.keyName).getD { multi := false, columns := [] }).columns.length r.seqInIndex)).set (r.seqInIndex - 1) r.columnName }) := rfl
    rw [hfold]
    revert ih
    generalize List.foldl (fun (d : Dict ExIndex) (r : IndexRow) => _) _ rows = d''
    intro ih
    cases hd'' : d'' n with
    | none =>
      rw [hd''] at ih
      obtain ⟨i1, i2⟩ := ih
      by_cases hn : n = r.keyName
      · rw [if_pos hn] at i1; exact nomatch i1
      · rw [if_neg hn] at i1
        refine ⟨i1, ?_⟩
        intro q hq
        rcases List.mem_cons.1 hq with rfl | hq
        · exact fun e => hn e.symm
        · exact i2 q hq
    | some y =>
      rw [hd''] at ih
      obtain ⟨x', sn, i1, i2, i3, i4, i5⟩ := ih
      refine ⟨x', sn, i1, i2, i3, ?_, ?_⟩
      · intro q hq hqn
        rcases List.mem_cons.1 hq with rfl | hq
        · exact i5 _ (by rw [if_pos hqn.symm]; exact List.mem_cons_self ..)
        · exact i4 q hq hqn
      · intro j hj
        refine i5 j ?_
        split
        · exact List.mem_cons_of_mem _ hj
        · exact hj

theorem readIndexes_eq {s : Schema} {rows : List IndexRow} (h : ReportsIndexes s rows) : readIndexes rows = s.indexes := by
  funext n
  have inv := readIndexes_inv (s := s) rows (fun _ => none) (fun _ => []) h.1 (fun _ => rfl) n
  unfold readIndexes
  revert inv
  generalize List.foldl (fun (d : Dict ExIndex) (r : IndexRow) => _) _ rows = d
  intro inv
  cases hd : d n with
  | none =>
    rw [hd] at inv
    cases hx : s.indexes n with
    | none => rfl
    | some x =>
      have hl : 0 < x.columns.length := List.length_pos_iff.2 (h.2.2 n x hx)
      obtain ⟨r, hr, hn, _⟩ := h.2.1 n x hx 0 hl
      exact absurd hn (inv.2 r hr)
  | some y =>
    rw [hd] at inv
    obtain ⟨x, sn, hx, _, ha, hs, _⟩ := inv
    rw [hx]
    obtain ⟨xm, xc⟩ := x
    obtain ⟨ym, yc⟩ := y
    have e1 : ym = xm := ha.1
    have e2 : yc = xc := by
      apply List.ext_getElem?
      intro j
      rcases Nat.lt_or_ge j xc.length with hj | hj
      · obtain ⟨r, hr, hn, hq⟩ := h.2.1 n _ hx j hj
        exact (ha.2.2 j (hq ▸ hs r hr hn)).1
      · have := ha.2.1
        rw [List.getElem?_eq_none hj, List.getElem?_eq_none (by simp only at this; omega)]
    rw [e1, e2]

/-! ## Comparison -/

theorem sameName_iff (a b : Bytes) : sameName a b = true ↔ a.map DateTime.lower = b.map DateTime.lower := by unfold sameName; simp

theorem sameColumns_iff : ∀ a b : List Bytes, sameColumns a b = true ↔ a.map (·.map DateTime.lower) = b.map (·.map DateTime.lower)
  | [], [] => by simp [sameColumns]
  | [], y :: b => by simp [sameColumns]
  | x :: a, [] => by simp [sameColumns]
  | x :: a, y :: b => by
    have ih := sameColumns_iff a b
    unfold sameColumns at ih ⊢
    simp only [List.length_cons, Nat.add_right_cancel_iff, List.zip_cons_cons, List.all_cons, List.map_cons, List.cons.injEq, ← ih, Bool.and_eq_true, decide_eq_true_eq, sameName_iff]
    constructor
    · rintro ⟨h1, h2, h3⟩; exact ⟨h2, h1, h3⟩
    · rintro ⟨h2, h1, h3⟩; exact ⟨h1, h2, h3⟩

theorem checkIndex_iff (i : Index) (x : ExIndex) : checkIndex i x = true ↔ IndexMatches i (some x) := by
  unfold checkIndex IndexMatches
  cases h : i.type <;> simp [sameColumns_iff]

theorem checkColumn_iff (E : Env) (c : Column) (x : ExColumn) (hw : wellTyped c = true) : ∃ b, checkColumn E c x = some b ∧ (b = true ↔ ColumnMatches E c (some x)) := by
  obtain ⟨name, type, nullable, default⟩ := c
  obtain ⟨xt, xn, xd, xe⟩ := x
  cases type <;> cases default <;> simp only [wellTyped, Bool.false_eq_true] at hw <;> cases xd <;>
    simp [checkColumn, checkType, checkInteger, ColumnMatches, SameDefault, typeNames] <;>
    (try split) <;> simp_all <;> grind

/-- What a column is after its clauses: `none` for the clauses means that it is left alone. -/
theorem columnClauses_cases (E : Env) (c : Column) (ex : Option ExColumn) (hw : wellTyped c = true) :
    (columnClauses E c ex = some [] ∧ ColumnMatches E c ex) ∨
    (¬ColumnMatches E c ex ∧ c.type ≠ .dropped ∧ (columnClauses E c ex = some [.addColumn (define c)] ∨ columnClauses E c ex = some [.modifyColumn (define c)])) ∨
    (¬ColumnMatches E c ex ∧ c.type = .dropped ∧ columnClauses E c ex = some [.dropColumn c.name]) := by
  cases ex with
  | none =>
    unfold columnClauses ColumnMatches
    by_cases h : c.type = .dropped <;> simp [h]
  | some x =>
    obtain ⟨b, hb, hm⟩ := checkColumn_iff E c x hw
    unfold columnClauses
    simp only [hb, Option.map_some]
    cases b with
    | true => exact .inl ⟨rfl, hm.1 rfl⟩
    | false =>
      have hn : ¬ColumnMatches E c (some x) := fun h => by have := hm.2 h; contradiction
      by_cases h : c.type = .dropped
      · exact .inr (.inr ⟨hn, h, by simp [h]⟩)
      · exact .inr (.inl ⟨hn, h, .inr (by simp [h])⟩)

theorem indexClauses_nil (i : Index) (ex : Option ExIndex) : indexClauses i ex = [] ↔ IndexMatches i ex := by
  cases ex with
  | none => unfold indexClauses IndexMatches; by_cases h : i.type = .dropped <;> simp [h]
  | some x =>
    rw [← checkIndex_iff]
    unfold indexClauses
    by_cases h : checkIndex i x = true <;> simp [h]

theorem allColumns_some (E : Env) (ex : Dict ExColumn) : ∀ (cs : List Column), (∀ c ∈ cs, wellTyped c = true) → ∃ l, allColumns E ex cs = some l
  | [], _ => ⟨[], rfl⟩
  | c :: cs, h => by
    obtain ⟨l, hl⟩ := allColumns_some E ex cs fun x hx => h x (List.mem_cons_of_mem _ hx)
    rw [allColumns]
    rcases columnClauses_cases E c (ex c.name) (h c (List.mem_cons_self ..)) with ⟨e, _⟩ | ⟨_, _, e | e⟩ | ⟨_, _, e⟩ <;> rw [e, hl] <;> exact ⟨_, rfl⟩

theorem allColumns_nil (E : Env) (ex : Dict ExColumn) : ∀ (cs : List Column), (∀ c ∈ cs, wellTyped c = true) →
    (allColumns E ex cs = some [] ↔ ∀ c ∈ cs, ColumnMatches E c (ex c.name))
  | [], _ => by simp [allColumns]
  | c :: cs, h => by
    have ih := allColumns_nil E ex cs fun x hx => h x (List.mem_cons_of_mem _ hx)
    obtain ⟨l, hl⟩ := allColumns_some E ex cs fun x hx => h x (List.mem_cons_of_mem _ hx)
    rw [hl] at ih
    rw [allColumns, hl, List.forall_mem_cons, ← ih]
    rcases columnClauses_cases E c (ex c.name) (h c (List.mem_cons_self ..)) with ⟨e, hm⟩ | ⟨hm, _, e | e⟩ | ⟨hm, _, e⟩ <;> simp [e, hm]

/-- The statement is empty if and only if the table matches. -/
theorem alter_nil (E : Env) (t : Table) (hw : ∀ c ∈ t.columns, wellTyped c = true) {s : Schema} {cols : List ColumnRow} {ixs : List IndexRow} (hc : ReportsColumns s cols)
    (hi : ReportsIndexes s ixs) : alter E t cols ixs = some [] ↔ Matches E t s := by
  unfold alter Matches
  rw [readColumns_eq hc, readIndexes_eq hi]
  obtain ⟨l, hl⟩ := allColumns_some E s.columns t.columns hw
  have := allColumns_nil E s.columns t.columns hw
  rw [← this, hl]
  simp only [Option.map_some, Option.some.injEq, List.append_eq_nil_iff, List.flatMap_eq_nil_iff, indexClauses_nil]

/-! ## Applying the statement -/

/-- What the server reports for a column that it has been given matches the column. -/
theorem column_matches {E : Env} {S : Server} (hf : Faithful E S) (c : Column) (hw : wellTyped c = true) (hd : c.type ≠ .dropped) : ColumnMatches E c (some (S.column (define c))) := by
  obtain ⟨name, type, nullable, default⟩ := c
  refine ⟨hd, ?_, ?_⟩
  · cases type with
    | dropped => exact absurd rfl hd
    | varchar => simp [Server.column, define, typeText, typeNames, hf.varchar]
    | bool => have := hf.tinyint; simp [Server.column, define, typeText, typeNames]; exact this
    | int => have := hf.int; simp [Server.column, define, typeText, typeNames]; exact this
    | int64 => have := hf.bigint; simp [Server.column, define, typeText, typeNames]; exact this
    | double => simp [Server.column, define, typeText, typeNames, hf.double]
    | blob => simp [Server.column, define, typeText, typeNames, hf.longblob]
    | datetime => simp [Server.column, define, typeText, typeNames, hf.datetime]
    | autoIncrement => have := hf.bigint; simp [Server.column, define, typeText, typeNames]; exact this
  · by_cases ha : type = .autoIncrement
    · simp [ha, Server.column, define]
    · rw [if_neg ha]
      refine ⟨by simp [Server.column, define, ha], by simp [Server.column, define, ha], ?_⟩
      cases default with
      | null => simp [SameDefault, Server.column, define, ha]
      | integer n => simpa [SameDefault, Server.column, define, ha] using hf.ofInteger _ n
      | double d =>
        have : finite d = true := by cases type <;> simp_all [wellTyped]
        simpa [SameDefault, Server.column, define, ha] using hf.ofDouble _ d this
      | blob b => simpa [SameDefault, Server.column, define, ha] using hf.ofBlob _ b
      | datetime ns => simpa [SameDefault, Server.column, define, ha] using hf.ofTime _ ns

/-- What is known of a column after the clauses for it. -/
theorem fold_columns {E : Env} {S : Server} (hf : Faithful E S) (ex : Dict ExColumn) : ∀ (cs : List Column) (l : List Clause) (s : Schema), (∀ c ∈ cs, wellTyped c = true) → (cs.map (·.name)).Nodup →
    (∀ c ∈ cs, s.columns c.name = ex c.name) → allColumns E ex cs = some l →
    (∀ c ∈ cs, ColumnMatches E c ((l.foldl S.clause s).columns c.name)) ∧
    (∀ n, n ∉ cs.map (·.name) → (l.foldl S.clause s).columns n = s.columns n) ∧
    (∀ n, s.indexes n = none → (l.foldl S.clause s).indexes n = none) ∧
    (∀ n x, s.indexes n = some x → x.columns ≠ [] → (∀ c ∈ cs, c.type = .dropped → ∀ k ∈ x.columns, sameName k c.name = false) → (l.foldl S.clause s).indexes n = some x)
  | [], l, s, _, _, _, hl => by
    cases hl
    exact ⟨by simp, fun n _ => rfl, fun n h => h, fun n x h _ _ => h⟩
  | c :: cs, l, s, hw, hnd, hex, hl => by
    have hw' : ∀ x ∈ cs, wellTyped x = true := fun x hx => hw x (List.mem_cons_of_mem _ hx)
    rw [List.map_cons, List.nodup_cons] at hnd
    obtain ⟨l', hl'⟩ := allColumns_some E ex cs hw'
    have hc := hw c (List.mem_cons_self ..)
    -- one step
    have step : ∀ (l0 : List Clause) (s1 : Schema), l0.foldl S.clause s = s1 → columnClauses E c (ex c.name) = some l0 → ColumnMatches E c (s1.columns c.name) →
        (∀ n, n ≠ c.name → s1.columns n = s.columns n) → (∀ n, s.indexes n = none → s1.indexes n = none) →
        (∀ n x, s.indexes n = some x → x.columns ≠ [] → (c.type = .dropped → ∀ k ∈ x.columns, sameName k c.name = false) → s1.indexes n = some x) →
        (∀ c' ∈ c :: cs, ColumnMatches E c' ((l.foldl S.clause s).columns c'.name)) ∧
        (∀ n, n ∉ (c :: cs).map (·.name) → (l.foldl S.clause s).columns n = s.columns n) ∧
        (∀ n, s.indexes n = none → (l.foldl S.clause s).indexes n = none) ∧
        (∀ n x, s.indexes n = some x → x.columns ≠ [] → (∀ c' ∈ c :: cs, c'.type = .dropped → ∀ k ∈ x.columns, sameName k c'.name = false) → (l.foldl S.clause s).indexes n = some x) := by
      intro l0 s1 h0 hcl hm hcol hin hix
      rw [allColumns, hcl, hl'] at hl
      simp only [Option.map_some, Option.some.injEq] at hl
      have hne : ∀ c' ∈ cs, c'.name ≠ c.name := fun c' hc' e => hnd.1 (e ▸ List.mem_map_of_mem hc')
      obtain ⟨i1, i2, i3, i4⟩ := fold_columns hf ex cs l' s1 hw' hnd.2 (fun c' hc' => by rw [hcol _ (hne c' hc')]; exact hex c' (List.mem_cons_of_mem _ hc')) hl'
      rw [← hl, List.foldl_append, h0]
      refine ⟨?_, ?_, ?_, ?_⟩
      · intro c' hc'
        rcases List.mem_cons.1 hc' with rfl | hc'
        · rw [i2 _ hnd.1]; exact hm
        · exact i1 c' hc'
      · intro n hn
        rw [List.map_cons, List.mem_cons, not_or] at hn
        rw [i2 n hn.2, hcol n hn.1]
      · exact fun n h => i3 n (hin n h)
      · intro n x h hx hk
        exact i4 n x (hix n x h hx (hk c (List.mem_cons_self ..))) hx fun c' hc' => hk c' (List.mem_cons_of_mem _ hc')
    rcases columnClauses_cases E c (ex c.name) hc with ⟨e, hm⟩ | ⟨hm, hd, e | e⟩ | ⟨hm, hd, e⟩
    · exact step [] s rfl e (by rw [hex c (List.mem_cons_self ..)]; exact hm) (fun n _ => rfl) (fun n h => h) (fun n x h _ _ => h)
    · refine step [_] _ rfl e ?_ ?_ (fun n h => h) (fun n x h _ _ => h)
      · have hname : (define c).name = c.name := by unfold define; split <;> rfl
        simp only [List.foldl_cons, List.foldl_nil, Server.clause, Dict.put, hname, if_true]
        exact column_matches hf c hc hd
      · intro n hn
        have hname : (define c).name = c.name := by unfold define; split <;> rfl
        simp only [List.foldl_cons, List.foldl_nil, Server.clause, Dict.put, hname, if_neg hn]
    · refine step [_] _ rfl e ?_ ?_ (fun n h => h) (fun n x h _ _ => h)
      · have hname : (define c).name = c.name := by unfold define; split <;> rfl
        simp only [List.foldl_cons, List.foldl_nil, Server.clause, Dict.put, hname, if_true]
        exact column_matches hf c hc hd
      · intro n hn
        have hname : (define c).name = c.name := by unfold define; split <;> rfl
        simp only [List.foldl_cons, List.foldl_nil, Server.clause, Dict.put, hname, if_neg hn]
    · refine step [_] _ rfl e ?_ ?_ ?_ ?_
      · simp only [List.foldl_cons, List.foldl_nil, Server.clause, if_true]; exact hd
      · intro n hn; simp only [List.foldl_cons, List.foldl_nil, Server.clause, if_neg hn]
      · intro n hn; simp only [List.foldl_cons, List.foldl_nil, Server.clause, hn]; rfl
      · intro n x h hx hk
        have hk' : x.columns.filter (!sameName · c.name) = x.columns := by
          rw [List.filter_eq_self]
          intro a ha
          rw [hk hd a ha]; rfl
        simp only [List.foldl_cons, List.foldl_nil, Server.clause, h, Option.bind_some, dropFromIndex, hk', if_neg hx]

theorem index_matches {E : Env} {S : Server} (hf : Faithful E S) (i : Index) (hp : sameName i.name (b! "PRIMARY") = true → i.type ≠ .multi) (hd : i.type ≠ .dropped) :
    IndexMatches i (some (S.index (defineIndex i))) := by
  have hcols : (defineIndex i).columns = i.columns := by unfold defineIndex; split <;> rfl
  refine ⟨hd, ?_, ?_⟩
  · unfold defineIndex Server.index
    by_cases h : sameName i.name (b! "PRIMARY") = true
    · have := hp h
      cases ht : i.type <;> simp_all
    · cases ht : i.type <;> simp_all
  · simp only [Server.index, hcols, List.map_map]
    apply List.map_congr_left
    intro n _
    exact (sameName_iff _ _).1 (hf.name n)

/-- What is known of an index after the clauses for it. -/
theorem fold_indexes {E : Env} {S : Server} (hf : Faithful E S) (ex : Dict ExIndex) : ∀ (is : List Index) (s : Schema),
    (∀ i ∈ is, sameName i.name (b! "PRIMARY") = true → i.name = primary ∧ i.type ≠ .multi) → (is.map (·.name)).Nodup →
    (∀ i ∈ is, IndexMatches i (ex i.name) → s.indexes i.name = ex i.name) →
    let s' := (is.flatMap fun i => indexClauses i (ex i.name)).foldl S.clause s
    (∀ i ∈ is, IndexMatches i (s'.indexes i.name)) ∧ (∀ n, n ∉ is.map (·.name) → s'.indexes n = s.indexes n) ∧ s'.columns = s.columns
  | [], s, _, _, _ => by intro s'; exact ⟨by simp, fun n _ => rfl, rfl⟩
  | i :: is, s, hp, hnd, hex => by
    intro s'
    rw [List.map_cons, List.nodup_cons] at hnd
    have hpi := hp i (List.mem_cons_self ..)
    have hkey : (defineIndex i).name.getD primary = i.name := by
      unfold defineIndex
      split
      · rename_i h; exact (hpi h).1.symm
      · rfl
    have step : ∀ s1 : Schema, (indexClauses i (ex i.name)).foldl S.clause s = s1 → IndexMatches i (s1.indexes i.name) → (∀ n, n ≠ i.name → s1.indexes n = s.indexes n) → s1.columns = s.columns →
        (∀ j ∈ i :: is, IndexMatches j (s'.indexes j.name)) ∧ (∀ n, n ∉ (i :: is).map (·.name) → s'.indexes n = s.indexes n) ∧ s'.columns = s.columns := by
      intro s1 h1 hm hix hcol
      have hne : ∀ j ∈ is, j.name ≠ i.name := fun j hj e => hnd.1 (e ▸ List.mem_map_of_mem hj)
      obtain ⟨a1, a2, a3⟩ := fold_indexes hf ex is s1 (fun j hj => hp j (List.mem_cons_of_mem _ hj)) hnd.2 (fun j hj hmj => by rw [hix _ (hne j hj)]; exact hex j (List.mem_cons_of_mem _ hj) hmj)
      have hs' : s' = (is.flatMap fun i => indexClauses i (ex i.name)).foldl S.clause s1 := by
        show List.foldl _ _ ((i :: is).flatMap _) = _
        rw [List.flatMap_cons, List.foldl_append, h1]
      rw [hs']
      refine ⟨?_, ?_, a3.trans hcol⟩
      · intro j hj
        rcases List.mem_cons.1 hj with rfl | hj
        · rw [a2 _ hnd.1]; exact hm
        · exact a1 j hj
      · intro n hn
        rw [List.map_cons, List.mem_cons, not_or] at hn
        rw [a2 n hn.2, hix n hn.1]
    have hadd : ∀ s0 : Schema, i.type ≠ .dropped → IndexMatches i ((S.clause s0 (.addIndex (defineIndex i))).indexes i.name) ∧ (∀ n, n ≠ i.name → (S.clause s0 (.addIndex (defineIndex i))).indexes n = s0.indexes n) := by
      intro s0 hd
      refine ⟨?_, ?_⟩
      · simp only [Server.clause, Dict.put, hkey, if_true]
        exact index_matches hf i (fun h => (hpi h).2) hd
      · intro n hn; simp only [Server.clause, Dict.put, hkey, if_neg hn]
    by_cases hm : IndexMatches i (ex i.name)
    · refine step s ?_ ?_ (fun n _ => rfl) rfl
      · rw [(indexClauses_nil i _).2 hm]; rfl
      · rw [hex i (List.mem_cons_self ..) hm]; exact hm
    · cases hx : ex i.name with
      | none =>
        rw [hx] at hm
        have hd : i.type ≠ .dropped := hm
        refine step (S.clause s (.addIndex (defineIndex i))) ?_ (hadd s hd).1 (hadd s hd).2 rfl
        rw [hx, indexClauses, if_neg hd]; rfl
      | some x =>
        rw [hx] at hm
        have hck : ¬checkIndex i x = true := fun h => hm ((checkIndex_iff i x).1 h)
        -- the drop
        let s0 : Schema := { s with indexes := fun n => if n = i.name then none else s.indexes n }
        have hdrop : S.clause s (if sameName i.name (b! "PRIMARY") then .dropPrimaryKey else .dropIndex i.name) = s0 := by
          by_cases h : sameName i.name (b! "PRIMARY") = true
          · rw [if_pos h]; simp only [Server.clause, s0, (hpi h).1]
          · rw [if_neg h]; rfl
        by_cases hd : i.type = .dropped
        · refine step s0 ?_ ?_ ?_ rfl
          · rw [hx, indexClauses, if_neg hck]; simp only [hd, ne_eq, not_true_eq_false, if_false, List.foldl_cons, List.foldl_nil]; exact hdrop
          · simp only [s0, if_true]; exact hd
          · intro n hn; simp only [s0, if_neg hn]
        · refine step (S.clause s0 (.addIndex (defineIndex i))) ?_ (hadd s0 hd).1 ?_ rfl
          · rw [hx, indexClauses, if_neg hck]; simp only [hd, ne_eq, not_false_eq_true, if_true, List.foldl_cons, List.foldl_nil]; rw [hdrop]
          · intro n hn; rw [(hadd s0 hd).2 n hn]; simp only [s0, if_neg hn]

/-- If no nullable column is in the primary key, then making columns of the primary key `NOT NULL` does not spoil what matches. -/
theorem primaryNotNull_matches {E : Env} {t : Table} {s : Schema} (h : Matches E t s)
    (hn : ∀ c ∈ t.columns, c.nullable = true → c.type = .autoIncrement ∨ (s.indexes primary).any (·.columns.any (sameName c.name)) = false) : Matches E t (primaryNotNull s) := by
  refine ⟨?_, h.2⟩
  intro c hc
  have h1 := h.1 c hc
  simp only [primaryNotNull]
  cases hx : s.columns c.name with
  | none => rw [hx] at h1; exact h1
  | some x =>
    rw [hx] at h1
    rw [Option.map_some]
    split
    · rename_i hp
      obtain ⟨a1, a2, a3⟩ := h1
      refine ⟨a1, a2, ?_⟩
      by_cases ha : c.type = .autoIncrement
      · rw [if_pos ha] at a3 ⊢; exact a3
      · rw [if_neg ha] at a3 ⊢
        refine ⟨a3.1, ?_, a3.2.2⟩
        cases hb : c.nullable with
        | false => rfl
        | true =>
          rcases hn c hc hb with h | h
          · exact absurd h ha
          · rw [h] at hp; exact nomatch hp
    · exact h1

/-- Names which are the same as names of columns that match. -/
theorem mem_lower {a b : List Bytes} (h : a.map (·.map DateTime.lower) = b.map (·.map DateTime.lower)) {k : Bytes} (hk : k ∈ a) : ∃ n ∈ b, sameName k n = true := by
  have : k.map DateTime.lower ∈ b.map (·.map DateTime.lower) := h ▸ List.mem_map_of_mem (f := (·.map DateTime.lower)) hk
  obtain ⟨n, hn, e⟩ := List.mem_map.1 this
  exact ⟨n, hn, (sameName_iff _ _).2 e.symm⟩

theorem matches_after {E : Env} {S : Server} (hf : Faithful E S) {t : Table} (ht : Sound t) {s : Schema} {cols : List ColumnRow} {ixs : List IndexRow} (hc : ReportsColumns s cols)
    (hi : ReportsIndexes s ixs) {l : List Clause} (hl : alter E t cols ixs = some l)
    (hn : ∀ c ∈ t.columns, c.nullable = true → c.type = .autoIncrement ∨ ((S.apply s l).indexes primary).any (·.columns.any (sameName c.name)) = false) : Matches E t (S.apply s l) := by
  unfold alter at hl
  rw [readColumns_eq hc, readIndexes_eq hi] at hl
  obtain ⟨lc, hlc⟩ := allColumns_some E s.columns t.columns ht.typed
  rw [hlc, Option.map_some] at hl
  simp only [Option.some.injEq] at hl
  obtain ⟨c1, c2, c3, c4⟩ := fold_columns hf s.columns t.columns lc s ht.typed ht.columns (fun _ _ => rfl) hlc
  obtain ⟨i1, i2, i3⟩ := fold_indexes hf s.indexes t.indexes (lc.foldl S.clause s) ht.primary ht.indexes (by
    intro i hi' hm
    cases hx : s.indexes i.name with
    | none => exact c3 _ hx
    | some x =>
      rw [hx] at hm
      refine c4 _ x hx (hi.2.2 _ _ hx) ?_
      intro c hc' hd k hk
      obtain ⟨n, hn', hs⟩ := mem_lower hm.2.2 hk
      have := ht.present i hi' hm.1 n hn' c hc' hd
      cases hb : sameName k c.name with
      | false => rfl
      | true =>
        rw [sameName_iff] at hb hs
        have : sameName n c.name = true := (sameName_iff _ _).2 (hs.symm.trans hb)
        simp_all)
  apply primaryNotNull_matches
  · subst hl
    rw [List.foldl_append]
    refine ⟨?_, i1⟩
    intro c hc'
    rw [i3]
    exact c1 c hc'
  · exact hn

/-! ## Creation -/

theorem fold_adds (S : Server) : ∀ (cs : List Column) (s : Schema), (cs.map (·.name)).Nodup →
    let s' := ((cs.filter (·.type ≠ .dropped)).map (Clause.addColumn ∘ define)).foldl S.clause s
    (∀ c ∈ cs, s'.columns c.name = if c.type = .dropped then s.columns c.name else some (S.column (define c))) ∧ (∀ n, n ∉ cs.map (·.name) → s'.columns n = s.columns n) ∧ s'.indexes = s.indexes
  | [], s, _ => by intro s'; exact ⟨by simp, fun _ _ => rfl, rfl⟩
  | c :: cs, s, hnd => by
    intro s'
    rw [List.map_cons, List.nodup_cons] at hnd
    have hname : (define c).name = c.name := by unfold define; split <;> rfl
    have hne : ∀ c' ∈ cs, c'.name ≠ c.name := fun c' hc' e => hnd.1 (e ▸ List.mem_map_of_mem hc')
    by_cases hd : c.type = .dropped
    · obtain ⟨a1, a2, a3⟩ := fold_adds S cs s hnd.2
      have e : s' = ((cs.filter (·.type ≠ .dropped)).map (Clause.addColumn ∘ define)).foldl S.clause s := by
        show List.foldl _ _ (List.map _ (List.filter _ _)) = _
        rw [List.filter_cons_of_neg (by simp [hd])]
      rw [e]
      refine ⟨?_, ?_, a3⟩
      · intro c' hc'
        rcases List.mem_cons.1 hc' with rfl | hc'
        · rw [a2 _ hnd.1, if_pos hd]
        · exact a1 c' hc'
      · intro n hn
        rw [List.map_cons, List.mem_cons, not_or] at hn
        exact a2 n hn.2
    · obtain ⟨a1, a2, a3⟩ := fold_adds S cs (S.clause s (.addColumn (define c))) hnd.2
      have e : s' = ((cs.filter (·.type ≠ .dropped)).map (Clause.addColumn ∘ define)).foldl S.clause (S.clause s (.addColumn (define c))) := by
        show List.foldl _ _ (List.map _ (List.filter _ _)) = _
        rw [List.filter_cons_of_pos (by simp [hd])]
        rfl
      rw [e]
      refine ⟨?_, ?_, a3⟩
      · intro c' hc'
        rcases List.mem_cons.1 hc' with rfl | hc'
        · rw [a2 _ hnd.1, if_neg hd]
          simp only [Server.clause, Dict.put, hname, if_true]
        · rw [a1 c' hc']
          simp only [Server.clause, Dict.put, hname, if_neg (hne c' hc')]
      · intro n hn
        rw [List.map_cons, List.mem_cons, not_or] at hn
        rw [a2 n hn.2]
        simp only [Server.clause, Dict.put, hname, if_neg hn.1]

theorem fold_addIndexes (S : Server) : ∀ (is : List Index) (s : Schema), (is.map (·.name)).Nodup → (∀ i ∈ is, sameName i.name (b! "PRIMARY") = true → i.name = primary ∧ i.type ≠ .multi) →
    let s' := ((is.filter (·.type ≠ .dropped)).map (Clause.addIndex ∘ defineIndex)).foldl S.clause s
    (∀ i ∈ is, s'.indexes i.name = if i.type = .dropped then s.indexes i.name else some (S.index (defineIndex i))) ∧ (∀ n, n ∉ is.map (·.name) → s'.indexes n = s.indexes n) ∧ s'.columns = s.columns
  | [], s, _, _ => by intro s'; exact ⟨by simp, fun _ _ => rfl, rfl⟩
  | c :: cs, s, hnd, hp => by
    intro s'
    rw [List.map_cons, List.nodup_cons] at hnd
    have hname : (defineIndex c).name.getD primary = c.name := by
      unfold defineIndex
      split
      · rename_i h; exact (hp c (List.mem_cons_self ..) h).1.symm
      · rfl
    have hp' := fun i hi => hp i (List.mem_cons_of_mem c hi)
    have hne : ∀ c' ∈ cs, c'.name ≠ c.name := fun c' hc' e => hnd.1 (e ▸ List.mem_map_of_mem hc')
    by_cases hd : c.type = .dropped
    · obtain ⟨a1, a2, a3⟩ := fold_addIndexes S cs s hnd.2 hp'
      have e : s' = ((cs.filter (·.type ≠ .dropped)).map (Clause.addIndex ∘ defineIndex)).foldl S.clause s := by
        show List.foldl _ _ (List.map _ (List.filter _ _)) = _
        rw [List.filter_cons_of_neg (by simp [hd])]
      rw [e]
      refine ⟨?_, ?_, a3⟩
      · intro c' hc'
        rcases List.mem_cons.1 hc' with rfl | hc'
        · rw [a2 _ hnd.1, if_pos hd]
        · exact a1 c' hc'
      · intro n hn
        rw [List.map_cons, List.mem_cons, not_or] at hn
        exact a2 n hn.2
    · obtain ⟨a1, a2, a3⟩ := fold_addIndexes S cs (S.clause s (.addIndex (defineIndex c))) hnd.2 hp'
      have e : s' = ((cs.filter (·.type ≠ .dropped)).map (Clause.addIndex ∘ defineIndex)).foldl S.clause (S.clause s (.addIndex (defineIndex c))) := by
        show List.foldl _ _ (List.map _ (List.filter _ _)) = _
        rw [List.filter_cons_of_pos (by simp [hd])]
        rfl
      rw [e]
      refine ⟨?_, ?_, a3⟩
      · intro c' hc'
        rcases List.mem_cons.1 hc' with rfl | hc'
        · rw [a2 _ hnd.1, if_neg hd]
          simp only [Server.clause, Dict.put, hname, if_true]
        · rw [a1 c' hc']
          simp only [Server.clause, Dict.put, hname, if_neg (hne c' hc')]
      · intro n hn
        rw [List.map_cons, List.mem_cons, not_or] at hn
        rw [a2 n hn.2]
        simp only [Server.clause, Dict.put, hname, if_neg hn.1]

theorem matches_created {E : Env} {S : Server} (hf : Faithful E S) {t : Table} (ht : Sound t)
    (hn : ∀ c ∈ t.columns, c.nullable = true → c.type = .autoIncrement ∨ ((S.created (create t)).indexes primary).any (·.columns.any (sameName c.name)) = false) : Matches E t (S.created (create t)) := by
  apply primaryNotNull_matches
  · have e1 := fold_adds S t.columns {} ht.columns
    have e2 := fold_addIndexes S t.indexes (((t.columns.filter (·.type ≠ .dropped)).map (Clause.addColumn ∘ define)).foldl S.clause {}) ht.indexes ht.primary
    simp only [create, List.map_map, List.foldl_append]
    refine ⟨?_, ?_⟩
    · intro c hc
      rw [e2.2.2, e1.1 c hc]
      by_cases hd : c.type = .dropped
      · rw [if_pos hd]; exact hd
      · rw [if_neg hd]; exact column_matches hf c (ht.typed c hc) hd
    · intro i hi
      rw [e2.1 i hi]
      by_cases hd : i.type = .dropped
      · rw [if_pos hd, e1.2.2]; exact hd
      · rw [if_neg hd]; exact index_matches hf i (fun h => (ht.primary i hi h).2) hd
  · exact hn

/-! ## What is left alone -/

theorem allColumns_mem (E : Env) (ex : Dict ExColumn) : ∀ (cs : List Column) (l : List Clause), allColumns E ex cs = some l → ∀ x ∈ l,
    ∃ c ∈ cs, ∃ k, columnClauses E c (ex c.name) = some k ∧ x ∈ k
  | [], l, h, x, hx => by rw [allColumns] at h; cases h; exact nomatch hx
  | c :: cs, l, h, x, hx => by
    rw [allColumns] at h
    cases hk : columnClauses E c (ex c.name) with
    | none => rw [hk] at h; exact nomatch h
    | some k =>
      rw [hk] at h
      cases hr : allColumns E ex cs with
      | none => rw [hr] at h; exact nomatch h
      | some r =>
        rw [hr] at h
        cases h
        rcases List.mem_append.1 hx with hx | hx
        · exact ⟨c, List.mem_cons_self .., k, hk, hx⟩
        · obtain ⟨c', h1, h2⟩ := allColumns_mem E ex cs r hr x hx
          exact ⟨c', List.mem_cons_of_mem _ h1, h2⟩

theorem define_name (c : Column) : (define c).name = c.name := by unfold define; split <;> rfl

/-- Every clause is needed. -/
theorem needed {E : Env} {t : Table} (ht : Sound t) {s : Schema} {cols : List ColumnRow} {ixs : List IndexRow} (hc : ReportsColumns s cols) (hi : ReportsIndexes s ixs) {l : List Clause}
    (hl : alter E t cols ixs = some l) : ∀ x ∈ l, Needed E t s x := by
  unfold alter at hl
  rw [readColumns_eq hc, readIndexes_eq hi] at hl
  obtain ⟨k, hk⟩ := allColumns_some E s.columns t.columns ht.typed
  rw [hk] at hl
  cases hl
  intro x hx
  rcases List.mem_append.1 hx with hx | hx
  · obtain ⟨c, hm, k', e, hx⟩ := allColumns_mem E _ _ _ hk x hx
    unfold columnClauses at e
    cases hs : s.columns c.name with
    | none =>
      rw [hs] at e
      by_cases hd : c.type = .dropped
      · simp only [hd, if_true, Option.some.injEq] at e; subst e; exact nomatch hx
      · simp only [hd, if_false, Option.some.injEq] at e; subst e
        rw [List.mem_singleton] at hx; subst hx
        exact ⟨c, hm, (define_name c).symm, hd, hs⟩
    | some y =>
      rw [hs] at e
      obtain ⟨b, hb, hm'⟩ := checkColumn_iff E c y (ht.typed c hm)
      simp only [hb, Option.map_some, Option.some.injEq] at e
      subst e
      cases b with
      | true => exact nomatch hx
      | false =>
        have hn : ¬ColumnMatches E c (some y) := fun h => by have := hm'.2 h; contradiction
        by_cases hd : c.type = .dropped
        · simp [hd] at hx; subst hx
          exact ⟨c, hm, rfl, hd, by rw [hs]; simp⟩
        · simp [hd] at hx; subst hx
          exact ⟨c, hm, (define_name c).symm, hd, y, hs, hn⟩
  · obtain ⟨i, hm, hx⟩ := List.mem_flatMap.1 hx
    have hn : ¬IndexMatches i (s.indexes i.name) := fun h => by rw [(indexClauses_nil i _).2 h] at hx; exact nomatch hx
    have hadd : i.type ≠ .dropped → Needed E t s (.addIndex (defineIndex i)) := by
      intro hd
      refine ⟨i, hm, ?_, hd, ?_, hn⟩
      · unfold defineIndex
        split
        · rename_i h; exact (ht.primary i hm h).1
        · rfl
      · unfold defineIndex; split <;> rfl
    unfold indexClauses at hx
    cases hs : s.indexes i.name with
    | none =>
      rw [hs] at hx
      by_cases hd : i.type = .dropped
      · simp [hd] at hx
      · simp only [hd, if_false, List.mem_singleton] at hx; subst hx; exact hadd hd
    | some y =>
      rw [hs] at hx hn
      simp only at hx
      rw [if_neg (fun h => hn ((checkIndex_iff i y).1 h))] at hx
      rcases List.mem_cons.1 hx with hx | hx
      · by_cases hp : sameName i.name (b! "PRIMARY") = true
        · rw [if_pos hp] at hx; subst hx
          have e := (ht.primary i hm hp).1
          exact ⟨i, hm, e, y, e ▸ hs, hn⟩
        · rw [if_neg hp] at hx; subst hx
          refine ⟨i, hm, rfl, fun e => hp ?_, y, hs, hn⟩
          rw [e]; decide
      · by_cases hd : i.type = .dropped
        · simp [hd] at hx
        · simp only [ne_eq, hd, not_false_iff, if_true, List.mem_singleton] at hx; subst hx; exact hadd hd

theorem fold_column (S : Server) {E : Env} {t : Table} {s : Schema} {n : Bytes} (hn : ∀ c ∈ t.columns, c.name = n → ColumnMatches E c (s.columns n)) : ∀ (l : List Clause) (u : Schema),
    (∀ x ∈ l, Needed E t s x) → (l.foldl S.clause u).columns n = u.columns n
  | [], _, _ => rfl
  | x :: l, u, h => by
    rw [List.foldl_cons, fold_column S hn l _ fun y hy => h y (List.mem_cons_of_mem _ hy)]
    have hx := h x (List.mem_cons_self ..)
    cases x with
    | addColumn d =>
      obtain ⟨c, hm, e, hd, hs⟩ := hx
      have : n ≠ d.name := by
        intro en
        have h1 := hn c hm (e.trans en.symm)
        rw [show n = c.name from en.trans e.symm, hs] at h1
        exact hd h1
      simp [Server.clause, Dict.put, this]
    | modifyColumn d =>
      obtain ⟨c, hm, e, hd, y, hs, hy⟩ := hx
      have : n ≠ d.name := by
        intro en
        have h1 := hn c hm (e.trans en.symm)
        rw [show n = c.name from en.trans e.symm, hs] at h1
        exact hy h1
      simp [Server.clause, Dict.put, this]
    | dropColumn k =>
      obtain ⟨c, hm, e, hd, hs⟩ := hx
      have : n ≠ k := by
        intro en
        have h1 := hn c hm (e.trans en.symm)
        rw [en] at h1
        cases hk : s.columns k with
        | none => exact hs hk
        | some y => rw [hk] at h1; exact h1.1 hd
      simp [Server.clause, this]
    | _ => rfl

theorem fold_index (S : Server) {E : Env} {t : Table} {s : Schema} {n : Bytes} (hn : ∀ i ∈ t.indexes, i.name = n → IndexMatches i (s.indexes n))
    (hc : ∀ x, s.indexes n = some x → x.columns ≠ [] ∧ ∀ k ∈ x.columns, ∀ c ∈ t.columns, c.type = .dropped → sameName k c.name = false) : ∀ (l : List Clause) (u : Schema),
    (∀ x ∈ l, Needed E t s x) → u.indexes n = s.indexes n → (l.foldl S.clause u).indexes n = s.indexes n
  | [], _, _, hu => hu
  | x :: l, u, h, hu => by
    rw [List.foldl_cons]
    refine fold_index S hn hc l _ (fun y hy => h y (List.mem_cons_of_mem _ hy)) ?_
    have hx := h x (List.mem_cons_self ..)
    cases x with
    | addColumn d => exact hu
    | modifyColumn d => exact hu
    | dropColumn k =>
      obtain ⟨c, hm, e, hd, _⟩ := hx
      show (u.indexes n).bind (dropFromIndex k) = _
      rw [hu]
      cases hs : s.indexes n with
      | none => rfl
      | some y =>
        obtain ⟨h1, h2⟩ := hc y hs
        have : y.columns.filter (!sameName · k) = y.columns := by
          rw [List.filter_eq_self]
          intro a ha
          rw [← e, h2 a ha c hm hd]; rfl
        simp [dropFromIndex, this, h1]
    | addIndex d =>
      obtain ⟨i, hm, e, _, _, hy⟩ := hx
      have : n ≠ d.name.getD primary := by
        intro en
        have e' : i.name = n := e.trans en.symm
        rw [e'] at hy
        exact hy (hn i hm e')
      show (u.indexes.put _ _) n = _
      simp [Dict.put, this, hu]
    | dropIndex k =>
      obtain ⟨i, hm, e, _, y, hs, hy⟩ := hx
      have : n ≠ k := by
        intro en
        have h1 := hn i hm (e.trans en.symm)
        rw [en, hs] at h1
        exact hy h1
      simp [Server.clause, this, hu]
    | dropPrimaryKey =>
      obtain ⟨i, hm, e, y, hs, hy⟩ := hx
      have : n ≠ primary := by
        intro en
        have h1 := hn i hm (e.trans en.symm)
        rw [en, hs] at h1
        exact hy h1
      simp [Server.clause, this, hu]

end Verif.MysqlCheck
