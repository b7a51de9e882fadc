import Verif.Spec.Queries
/-! # Queries to MongoDB -/
namespace Verif.MongoQuery
open Verif.Mongo Verif.Spec

/-- What there is to fetch. -/
inductive Pending (net : Net) : Conn → List Bdoc → Bool → Prop
  | none {c} : c.cursor = none → c.reply = none → Pending net c [] false
  | reply {c r} : c.cursor = none → c.reply = some r → (∀ v, (b! "cursor", v) ∉ r) → Pending net c [r] false
  | start {c r v} : c.cursor = none → c.reply = some r → (b! "cursor", v) ∈ r →
      Pending net c (net.cursor c.trace r).docs (net.cursor c.trace r).error
  | cursor {c cur} : c.cursor = some cur → Pending net c cur.docs cur.error

theorem hasCursor_iff (r : Bdoc) : hasCursor r = true ↔ ∃ v, (b! "cursor", v) ∈ r := by
  unfold hasCursor
  rw [List.any_eq_true]
  constructor
  · rintro ⟨⟨k, v⟩, h1, h2⟩
    simp only [decide_eq_true_eq] at h2
    exact ⟨v, h2 ▸ h1⟩
  · rintro ⟨v, h⟩
    exact ⟨_, h, by simp⟩

theorem next_docs (net : Net) (c : Conn) (cur : Cursor) {d : Bdoc} {ds : List Bdoc} (h : cur.docs = d :: ds) :
    ∃ c', next c cur = (c', .doc d) ∧ Pending net c' ds cur.error ∧ c'.trace = c.trace := by
  unfold next
  rw [h]
  exact ⟨_, rfl, .cursor (cur := { cur with docs := ds }) rfl, rfl⟩

theorem next_end (net : Net) (c : Conn) (cur : Cursor) (h : cur.docs = []) :
    ∃ c', next c cur = (c', if cur.error then .throw else .no) ∧ Pending net c' [] cur.error ∧ c'.trace = c.trace := by
  unfold next
  rw [h]
  exact ⟨_, rfl, h ▸ .cursor (cur := cur) rfl, rfl⟩

theorem fetch_cons {net : Net} {c : Conn} {d : Bdoc} {ds : List Bdoc} {e : Bool} (h : Pending net c (d :: ds) e) :
    ∃ c', fetch_bson net c = (c', .doc d) ∧ Pending net c' ds e ∧ c'.trace = c.trace := by
  generalize hl : d :: ds = l at h
  cases h with
  | none h1 h2 => cases hl
  | @reply r h1 h2 h3 =>
    cases hl
    have : hasCursor d = false := by
      cases hc : hasCursor d with
      | false => rfl
      | true => obtain ⟨v, hv⟩ := (hasCursor_iff d).mp hc; exact absurd hv (h3 v)
    unfold fetch_bson
    rw [h1, h2]
    dsimp only
    rw [this]
    exact ⟨_, rfl, .none rfl rfl, rfl⟩
  | @start r v h1 h2 h3 =>
    have : hasCursor r = true := (hasCursor_iff r).mpr ⟨v, h3⟩
    unfold fetch_bson
    rw [h1, h2]
    dsimp only
    rw [this]
    obtain ⟨c', g1, g2, g3⟩ := next_docs net { c with reply := none } _ hl.symm
    refine ⟨c', ?_, g2, g3⟩
    rw [← g1]
    rfl
  | @cursor cur h1 =>
    unfold fetch_bson
    rw [h1]
    exact next_docs net c cur hl.symm

theorem fetch_nil {net : Net} {c : Conn} {e : Bool} (h : Pending net c [] e) :
    ∃ c', fetch_bson net c = (c', if e then .throw else .no) ∧ Pending net c' [] e ∧ c'.trace = c.trace := by
  generalize hl : ([] : List Bdoc) = l at h
  cases h with
  | none h1 h2 =>
    unfold fetch_bson
    rw [h1, h2]
    exact ⟨_, rfl, .none h1 h2, rfl⟩
  | @reply r h1 h2 h3 => cases hl
  | @start r v h1 h2 h3 =>
    have : hasCursor r = true := (hasCursor_iff r).mpr ⟨v, h3⟩
    unfold fetch_bson
    rw [h1, h2]
    dsimp only
    rw [this]
    obtain ⟨c', g1, g2, g3⟩ := next_end net { c with reply := none } _ hl.symm
    rw [← hl]
    refine ⟨c', ?_, g2, g3⟩
    rw [← g1]
    rfl
  | @cursor cur h1 =>
    unfold fetch_bson
    rw [h1, ← hl]
    exact next_end net c cur hl.symm

theorem pending_bound {net : Net} {c : Conn} {ds : List Bdoc} {e : Bool} (h : Pending net c ds e) : ds.length ≤ c.bound net := by
  unfold Conn.bound
  cases h with
  | none h1 h2 => simp
  | reply h1 h2 h3 => rw [h1, h2]; simp
  | start h1 h2 h3 => rw [h1, h2]; simp
  | cursor h1 => rw [h1]; simp

theorem fetchAll_eq {net : Net} {ds : List Bdoc} {vs : List (List (Bytes × Value))} (hv : Unpacked ds vs) :
    ∀ {c : Conn} {e : Bool} (acc : List (List (Bytes × Value))) (n : Nat), Pending net c ds e → ds.length < n →
      ∃ c', fetchAll net n c acc = (c', if e then none else some (acc ++ vs)) ∧ Pending net c' [] e ∧ c'.trace = c.trace := by
  induction hv with
  | nil =>
    intro c e acc n h hn
    obtain ⟨m, rfl⟩ : ∃ m, n = m + 1 := ⟨n - 1, by omega⟩
    obtain ⟨c', h1, h2, h3⟩ := fetch_nil h
    unfold fetchAll fetch_reply
    rw [h1]
    cases e with
    | true => exact ⟨c', rfl, h2, h3⟩
    | false => exact ⟨c', by simp, h2, h3⟩
  | @cons d ds v vs h1 _ ih =>
    intro c e acc n h hn
    obtain ⟨m, rfl⟩ : ∃ m, n = m + 1 := ⟨n - 1, by omega⟩
    obtain ⟨c', g1, g2, g3⟩ := fetch_cons h
    unfold fetchAll fetch_reply
    rw [g1]
    dsimp only
    rw [h1]
    dsimp only
    obtain ⟨c'', k1, k2, k3⟩ := ih (acc ++ [v]) m g2 (by simp at hn; omega)
    exact ⟨c'', by rw [k1, List.append_assoc]; rfl, k2, k3.trans g3⟩

theorem answer_pending {net : Net} {c : Conn} {r : Bdoc} {ds : List Bdoc} {e : Bool} (h1 : c.cursor = none) (h2 : c.reply = some r)
    (h : Answer net c.trace r ds e) : Pending net c ds e := by
  cases h with
  | cursor hv => exact .start h1 h2 hv
  | reply hv => exact .reply h1 h2 hv

end Verif.MongoQuery
