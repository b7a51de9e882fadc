import Verif.Spec.MysqlQuery
import Verif.Proofs.RedisConversation
/-! # MySQL statements and queries -/
namespace Verif.MysqlQuery
open Verif.Mysql Verif.Spec Verif.Connection

/-- Elements before `col` are still there. -/
def Keeps (col : Nat) (a b : TimeBuf) : Prop := a.data = [] ∨ (b.place = a.place ∧ ∀ i, i < col → b.data[i]? = a.data[i]?)

theorem keeps_refl (col : Nat) (a : TimeBuf) : Keeps col a a := Or.inr ⟨rfl, fun _ _ => rfl⟩

theorem bindOne_spec (zone : Int → Int) (args : List Value) (col : Nat) (tb : TimeBuf) (v : Value) (hv : args[col]? = some v)
    (hl : tb.data = [] ∨ tb.data.length = args.length) :
    ((bindOne zone args.length col tb v).1.data = [] ∨ (bindOne zone args.length col tb v).1.data.length = args.length) ∧
    Keeps col tb (bindOne zone args.length col tb v).1 ∧
    ∀ tb', Keeps (col + 1) (bindOne zone args.length col tb v).1 tb' → deref args tb' (bindOne zone args.length col tb v).2 = some (paramOf zone v) := by
  have hcol : col < args.length := (List.getElem?_eq_some_iff.mp hv).1
  cases v with
  | null => exact ⟨hl, keeps_refl _ _, fun tb' _ => rfl⟩
  | integer n => exact ⟨hl, keeps_refl _ _, fun tb' _ => by simp [bindOne, deref, hv, paramOf]⟩
  | double d => exact ⟨hl, keeps_refl _ _, fun tb' _ => by simp [bindOne, deref, hv, paramOf]⟩
  | blob s => exact ⟨hl, keeps_refl _ _, fun tb' _ => by simp [bindOne, deref, hv, paramOf]⟩
  | datetime ns =>
    have hr : (tb.resize args.length).data.length = args.length ∧ Keeps col tb (tb.resize args.length) := by
      unfold TimeBuf.resize
      rcases hl with hl | hl
      · have : ¬ args.length ≤ tb.data.length := by rw [hl, List.length_nil]; omega
        rw [if_neg this]
        exact ⟨by simp [hl], Or.inl hl⟩
      · rw [if_pos (by omega)]
        refine ⟨by simp [hl], Or.inr ⟨rfl, fun i _ => ?_⟩⟩
        dsimp only
        rw [← hl, List.take_length]
    show ((_ : List Time).set col _ = [] ∨ ((_ : List Time).set col _).length = _) ∧ _ ∧ _
    refine ⟨Or.inr (by simp [hr.1]), ?_, ?_⟩
    · rcases hr.2 with h | ⟨h1, h2⟩
      · exact Or.inl h
      · refine Or.inr ⟨h1, fun i hi => ?_⟩
        rw [← h2 i hi]
        show (List.set _ col _)[i]? = _
        rw [List.getElem?_set_ne (by omega)]
    · intro tb' hk
      have hne : (bindOne zone args.length col tb (.datetime ns)).1.data ≠ [] := by
        intro hc
        have : ((tb.resize args.length).data.set col (bindTime zone ns)).length = 0 := by
          rw [show (tb.resize args.length).data.set col (bindTime zone ns) = [] from hc]; rfl
        rw [List.length_set, hr.1] at this; omega
      rcases hk with h | ⟨h1, h2⟩
      · exact absurd h hne
      · have h3 := h2 col (by omega)
        show (if _ = tb'.place then (tb'.data[col]?).map Param.datetime else none) = _
        have h4 : (tb.resize args.length).place = tb'.place := h1.symm
        have h5 : tb'.data[col]? = some (bindTime zone ns) := by
          rw [h3]
          show (List.set _ col _)[col]? = _
          rw [List.getElem?_set_self (by rw [hr.1]; exact hcol)]
        rw [h5]
        exact if_pos h4

theorem bindLoop_spec (zone : Int → Int) (args : List Value) (vs : List Value) : ∀ (col : Nat) (tb : TimeBuf) (binds : List Bind),
    (∀ i v, vs[i]? = some v → args[col + i]? = some v) → (tb.data = [] ∨ tb.data.length = args.length) →
    Keeps col tb (bindLoop zone args.length vs col tb binds).1 ∧
    ∃ bs, (bindLoop zone args.length vs col tb binds).2 = binds ++ bs ∧
      bs.mapM (deref args (bindLoop zone args.length vs col tb binds).1) = some (vs.map (paramOf zone)) := by
  induction vs with
  | nil => intro col tb binds _ _; exact ⟨keeps_refl _ _, [], by simp [bindLoop], rfl⟩
  | cons v vs ih =>
    intro col tb binds hvs hl
    obtain ⟨h1, h2, h3⟩ := bindOne_spec zone args col tb v (hvs 0 v rfl) hl
    have hvs' : ∀ i w, vs[i]? = some w → args[(col + 1) + i]? = some w := by
      intro i w hi
      have := hvs (i + 1) w (by simpa using hi)
      rwa [show col + 1 + i = col + (i + 1) from by omega]
    obtain ⟨h4, bs, h5, h6⟩ := ih (col + 1) (bindOne zone args.length col tb v).1 (binds ++ [(bindOne zone args.length col tb v).2]) hvs' h1
    have e : bindLoop zone args.length (v :: vs) col tb binds =
      bindLoop zone args.length vs (col + 1) (bindOne zone args.length col tb v).1 (binds ++ [(bindOne zone args.length col tb v).2]) := rfl
    rw [e]
    refine ⟨?_, (bindOne zone args.length col tb v).2 :: bs, ?_, ?_⟩
    · rcases h2 with h | ⟨ha, hb⟩
      · exact Or.inl h
      · rcases h4 with h | ⟨hc, hd⟩
        · by_cases hz : col = 0
          · subst hz
            left
            -- nothing was there before
            have h0 := h
            cases hdat : tb.data with
            | nil => rfl
            | cons x xs =>
              exfalso
              rcases hl with hl | hl
              · rw [hdat] at hl; cases hl
              · cases v with
                | datetime ns =>
                  have : ((tb.resize args.length).data.set 0 (bindTime zone ns)).length = 0 := by
                    rw [show (tb.resize args.length).data.set 0 (bindTime zone ns) = [] from h0]; rfl
                  rw [List.length_set] at this
                  unfold TimeBuf.resize at this
                  rw [if_pos (by omega)] at this
                  rw [← hl, List.take_length, hdat] at this
                  cases this
                | _ => rw [show (bindOne zone args.length 0 tb _).1.data = tb.data from rfl, hdat] at h0; cases h0
          · have := hb 0 (by omega)
            rw [h] at this
            left
            cases hdat : tb.data with
            | nil => rfl
            | cons x xs => rw [hdat] at this; simp at this
        · exact Or.inr ⟨by rw [hc, ha], fun i hi => by rw [hd i (by omega), hb i hi]⟩
    · rw [h5]; simp
    · rw [List.mapM_cons, h3 _ h4, h6]; rfl

/-- The server gets the arguments. -/
theorem bindAndExecute_eq (net : Net) (c : Conn) (stmt : Bytes) (args : List Value) (nparams : Nat) (hn : nparams ≤ args.length) :
    bindAndExecute net c stmt args nparams =
      let params := (args.take nparams).map (paramOf net.zone)
      let r := net.execute c.trace stmt params
      ({ c with clear := false, stmt := some (r.getD {}), trace := c.trace ++ [.execute stmt params r] }, if r.isSome then .ok else .execute) := by
  have h := bindLoop_spec net.zone args (args.take nparams) 0 {} [] (by
    intro i v hi
    rw [Nat.zero_add]
    rw [List.getElem?_take] at hi
    split at hi
    · exact hi
    · cases hi) (Or.inl rfl)
  obtain ⟨_, bs, h1, h2⟩ := h
  unfold bindAndExecute
  rw [List.nil_append] at h1
  rw [← h1] at h2
  generalize bindLoop net.zone args.length (args.take nparams) 0 {} [] = p at h2
  obtain ⟨tb, binds⟩ := p
  dsimp only at h2 ⊢
  rw [h2]

theorem resize_length (s : Bytes) (n : Nat) : (resize s n).length = n := by
  unfold resize
  rw [List.length_append, List.length_take, List.length_replicate]; omega

theorem writeInto_full (buf s : Bytes) (h : buf.length = s.length) : writeInto buf s = s := by
  unfold writeInto
  rw [h, List.take_length, List.drop_eq_nil_of_le (by omega), List.append_nil]

theorem fetchBlob_eq (s : Bytes) : fetchBlob s = s := by
  unfold fetchBlob
  dsimp only
  split
  · exact writeInto_full _ _ (resize_length _ _)
  · rename_i h
    have e : writeInto (List.replicate 255 0) s = s ++ List.replicate (255 - s.length) 0 := by
      unfold writeInto
      rw [List.length_replicate, List.take_of_length_le (by omega), List.drop_replicate]
    rw [e]
    unfold resize
    rw [List.take_left' rfl]
    have : s.length - (s ++ List.replicate (255 - s.length) (0 : Byte)).length = 0 := by rw [List.length_append]; omega
    rw [this]; simp

theorem fetchCell_eq {net : Net} {ty : FieldType} {c : Cell} {v : Value} (h : ReadsCell net ty c v) : fetchCell net ty c = some v := by
  cases h with
  | null => rfl
  | @integer ty n hty h1 h2 =>
    have hw : wrap64 n = n := by unfold wrap64; omega
    have hb : bufType ty = .longlong := by
      simp only [List.mem_cons, List.not_mem_nil, or_false] at hty
      rcases hty with rfl | rfl | rfl | rfl | rfl <;> rfl
    show (match bufType ty with | .null => _ | .longlong => _ | .double => _ | .datetime => _ | .blob => _) = _
    rw [hb]
    show some (Value.integer (wrap64 n)) = _
    rw [hw]
  | @double ty d hty =>
    have hb : bufType ty = .double := by
      simp only [List.mem_cons, List.not_mem_nil, or_false] at hty
      rcases hty with rfl | rfl <;> rfl
    show (match bufType ty with | .null => _ | .longlong => _ | .double => _ | .datetime => _ | .blob => _) = _
    rw [hb]
    rfl
  | @datetime ty t ns k hty h1 =>
    have hb : bufType ty = .datetime := by
      simp only [List.mem_cons, List.not_mem_nil, or_false] at hty
      rcases hty with rfl | rfl | rfl | rfl <;> rfl
    show (match bufType ty with | .null => _ | .longlong => _ | .double => _ | .datetime => _ | .blob => _) = _
    rw [hb]
    show (match fetchTime net.timelocal net.isdst t with | .ok ns _ => some (Value.datetime ns) | _ => none) = _
    rw [h1]
  | @blob s =>
    show some (Value.blob (fetchBlob s)) = _
    rw [fetchBlob_eq]

theorem fetchCells_eq {net : Net} {fs : List (Bytes × FieldType)} {cs : List Cell} {vs : List Value} (h : ReadsRow net fs cs vs) :
    fetchCells net fs cs = some vs := by
  induction h with
  | nil => rfl
  | cons h1 _ ih => unfold fetchCells; rw [fetchCell_eq h1, ih]; rfl

/-- All rows are fetched. -/
theorem fetchAll_eq {net : Net} {fs : List (Bytes × FieldType)} (hfs : fs ≠ []) {rows : List Row} {vss : List (List Value)} (h : ReadsRows net fs rows vss) :
    ∀ (c : Conn) (r : ResultSet) (acc : List (List Value)) (n : Nat), c.stmt = some r → r.fields = some fs → r.rows = rows → rows.length < n →
      fetchAll net n c acc = ({ c with stmt := some { r with rows := [] } }, some (acc ++ vss)) := by
  have hemp : fs.isEmpty = false := by cases fs with | nil => exact absurd rfl hfs | cons _ _ => rfl
  induction h with
  | nil =>
    intro c r acc n h1 h2 h3 hn
    obtain ⟨m, rfl⟩ : ∃ m, n = m + 1 := ⟨n - 1, by omega⟩
    unfold fetchAll fetch_row
    rw [h1]
    dsimp only
    rw [h2]
    dsimp only
    rw [hemp, h3]
    simp only [List.append_nil]
    cases c
    cases r
    simp_all
  | @cons cs vs rows vss hr _ ih =>
    intro c r acc n h1 h2 h3 hn
    obtain ⟨m, rfl⟩ : ∃ m, n = m + 1 := ⟨n - 1, by simp at hn; omega⟩
    unfold fetchAll fetch_row
    rw [h1]
    dsimp only
    rw [h2]
    dsimp only
    rw [hemp, h3]
    simp only [fetchCells_eq hr]
    rw [if_neg (by simp)]
    dsimp only
    rw [ih _ { r with fields := some fs, rows := rows } (acc ++ [vs]) m rfl rfl rfl (by simp at hn; omega)]
    simp

theorem fetchAll_none {net : Net} {c : Conn} {r : ResultSet} (h1 : c.stmt = some r) (h2 : r.fields = none ∨ r.fields = some []) (n : Nat) :
    fetchAll net (n + 1) c [] = (c, some []) := by
  unfold fetchAll fetch_row
  rw [h1]
  dsimp only
  rcases h2 with h2 | h2
  · rw [h2]
  · rw [h2]; rfl

/-- An error in a row is an exception. -/
theorem fetchAll_error {net : Net} {fs : List (Bytes × FieldType)} (hfs : fs ≠ []) {rows rest : List Row} {vss : List (List Value)} (h : ReadsRows net fs rows vss) :
    ∀ (c : Conn) (r : ResultSet) (acc : List (List Value)) (n : Nat), c.stmt = some r → r.fields = some fs → r.rows = rows ++ .error :: rest →
      (fetchAll net n c acc).2 = none := by
  have hemp : fs.isEmpty = false := by cases fs with | nil => exact absurd rfl hfs | cons _ _ => rfl
  induction h with
  | nil =>
    intro c r acc n h1 h2 h3
    cases n with
    | zero => rfl
    | succ m =>
      unfold fetchAll fetch_row
      rw [h1]
      dsimp only
      rw [h2]
      dsimp only
      rw [hemp, h3]
      rfl
  | @cons cs vs rows vss hr _ ih =>
    intro c r acc n h1 h2 h3
    cases n with
    | zero => rfl
    | succ m =>
      unfold fetchAll fetch_row
      rw [h1]
      dsimp only
      rw [h2]
      dsimp only
      rw [hemp, h3]
      simp only [List.cons_append, fetchCells_eq hr]
      rw [if_neg (by simp)]
      dsimp only
      exact ih _ { r with fields := some fs, rows := rows ++ .error :: rest } (acc ++ [vs]) m rfl rfl rfl

end Verif.MysqlQuery
