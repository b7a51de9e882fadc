import Verif.Proofs.Config
import Verif.Proofs.HttpMessage
import Verif.Model.Reload
import Verif.Spec.Reload
/-! # Proofs about settings -/
namespace Verif.Reload
open Verif.Config Verif.Spec.Reload

variable {R : Type}

def isNameB : Bytes → Bool
  | [] => false
  | c :: t => decide (c ∈ letters) && t.all fun d => decide (d ∈ letters) || decide (d ∈ digits)

theorem isName_of {n : Bytes} (h : isNameB n = true) : IsName n := by
  cases n with
  | nil => cases h
  | cons c t =>
    simp only [isNameB, Bool.and_eq_true, decide_eq_true_eq, List.all_eq_true, Bool.or_eq_true] at h
    exact ⟨c, t, rfl, h.1, h.2⟩

/-- `.a.b` -/
def dots : List Bytes → Bytes
  | [] => []
  | n :: ns => chr '.' :: (n ++ dots ns)

theorem blanks_nil : Blanks [] := by simp [Blanks]

theorem tail_dots {ns : List Bytes} (h : ns.all isNameB = true) {rest : Bytes} {parts : List Part} (ht : Tail rest parts) : Tail (dots ns ++ rest) (ns.map .name ++ parts) := by
  induction ns with
  | nil => exact ht
  | cons n ns ih =>
    simp only [List.all_cons, Bool.and_eq_true] at h
    have := Tail.name (p := []) (q := []) blanks_nil blanks_nil (isName_of h.1) (ih h.2)
    simpa [dots] using this

theorem spells_dots {n : Bytes} {ns : List Bytes} (h : (n :: ns).all isNameB = true) {rest : Bytes} {parts : List Part} (ht : Tail rest parts) :
    Spells (n ++ (dots ns ++ rest)) ((n :: ns).map .name ++ parts) := by
  simp only [List.all_cons, Bool.and_eq_true] at h
  exact ⟨[], n, dots ns ++ rest, _, rfl, rfl, blanks_nil, isName_of h.1, tail_dots h.2 ht⟩

theorem query_dots (root : Root R) {path n : Bytes} {ns : List Bytes} (h : (n :: ns).all isNameB = true) (hp : path = n ++ dots ns) :
    query root path = match entry root (n :: ns) with
      | .found v => some v
      | .missing => some .null
      | .error => none := by
  have hs : Spells path ((n :: ns).map .name) := by
    have := spells_dots h (Tail.done blanks_nil)
    rw [hp]; simpa using this
  unfold query entry
  rw [go_spells root hs]
  cases follow (.object root) ((n :: ns).map .name) <;> rfl

theorem text_eq (root : Root R) {path n : Bytes} {ns : List Bytes} (d : Bytes) (h : (n :: ns).all isNameB = true) (hp : path = n ++ dots ns) :
    valueOr (getStringOpt root path) d = text root (n :: ns) d := by
  unfold getStringOpt text
  rw [query_dots root h hp]
  cases entry root (n :: ns) with
  | found v => cases v <;> rfl
  | missing => rfl
  | error => rfl

theorem number_eq (root : Root R) {path n : Bytes} {ns : List Bytes} (lo hi d : Int) (h : (n :: ns).all isNameB = true) (hp : path = n ++ dots ns) :
    valueOr (getIntegerOpt root path lo hi) d = number root (n :: ns) lo hi d := by
  unfold getIntegerOpt number
  rw [query_dots root h hp]
  cases entry root (n :: ns) with
  | found v =>
    cases v with
    | integer i =>
      simp only
      by_cases hi' : lo ≤ i ∧ i ≤ hi
      · rw [if_pos hi', if_neg (by simp [hi'.1, hi'.2])]; rfl
      · rw [if_neg hi', if_pos (by simpa using hi')]; rfl
    | _ => rfl
  | missing => rfl
  | error => rfl

theorem flag_eq (root : Root R) {path n : Bytes} {ns : List Bytes} (d : Bool) (h : (n :: ns).all isNameB = true) (hp : path = n ++ dots ns) :
    valueOr (getBooleanOpt root path) d = flag root (n :: ns) d := by
  unfold getBooleanOpt flag
  rw [query_dots root h hp]
  cases entry root (n :: ns) with
  | found v => cases v <;> rfl
  | missing => rfl
  | error => rfl

/-! ### Arrays of strings -/

theorem follow_append (v : Value R) (a b : List Part) : follow v (a ++ b) = match follow v a with
    | .found w => follow w b
    | r => r := by
  induction a generalizing v with
  | nil => rfl
  | cons p ps ih =>
    simp only [List.cons_append, follow]
    cases child v p with
    | found w => exact ih w
    | missing => rfl
    | error => rfl

theorem decNum_digits {ds : Bytes} {n : Nat} (h : Verif.Spec.DecNum ds n) : (∀ d ∈ ds, d ∈ digits) ∧ decimal ds = n ∧ ds.dropLast.foldl (fun a d => a * 10 + (d.toNat - 48)) 0 = n / 10 := by
  induction h with
  | nil => simp [decimal]
  | @snoc ds n d h hd ih =>
    have hmem : ∀ d < 10, UInt8.ofNat (0x30 + d) ∈ digits := by decide
    have hv : (UInt8.ofNat (0x30 + d)).toNat - 48 = d := by
      have : ∀ d < 10, (UInt8.ofNat (0x30 + d)).toNat - 48 = d := by decide
      exact this d hd
    refine ⟨?_, ?_, ?_⟩
    · intro x hx
      rcases List.mem_append.mp hx with hx | hx
      · exact ih.1 x hx
      · simp only [List.mem_singleton] at hx; subst hx; exact hmem d hd
    · have h2 := ih.2.1
      unfold decimal at h2 ⊢
      rw [List.foldl_append, h2]
      simp only [List.foldl_cons, List.foldl_nil, hv]
    · rw [List.dropLast_concat]
      have h2 := ih.2.1
      unfold decimal at h2
      rw [h2]; omega

theorem isIndex_decimal {k : Nat} (h : k < 9999990) : IsIndex (Http.decimal k) := by
  have h1 := decNum_digits (Http.decimal_decNum k)
  refine ⟨?_, h1.1, ?_⟩
  · unfold Http.decimal
    cases k with
    | zero => simp [Http.digits]
    | succ k => unfold Http.digits; split <;> simp
  · unfold decimal; rw [h1.2.2]; omega

theorem query_element (root : Root R) {path n : Bytes} {ns : List Bytes} (h : (n :: ns).all isNameB = true) (hp : path = n ++ dots ns) {l : List (Value R)} (he : entry root (n :: ns) = .found (.array l))
    {k : Nat} (hk : k < 9999990) : query root (path ++ [chr '['] ++ Http.decimal k ++ [chr ']']) = match l[k]? with
      | some v => some v
      | none => some .null := by
  have hs : Spells (path ++ [chr '['] ++ Http.decimal k ++ [chr ']']) ((n :: ns).map .name ++ [.index k]) := by
    have h1 := Tail.index (p := []) (q := []) (r := []) (rest := []) blanks_nil blanks_nil (isIndex_decimal hk) blanks_nil (Tail.done blanks_nil)
    rw [(decNum_digits (Http.decimal_decNum k)).2.1] at h1
    have := spells_dots h h1
    rw [hp]; simpa using this
  unfold query
  rw [go_spells root hs, follow_append]
  unfold entry at he
  rw [he]
  simp only [follow, child]
  cases l[k]? <;> rfl

theorem strings_eq (root : Root R) {path n : Bytes} {ns : List Bytes} (h : (n :: ns).all isNameB = true) (hp : path = n ++ dots ns) {l : List (Value R)} (he : entry root (n :: ns) = .found (.array l))
    (hl : l.length ≤ 9999990) : ∀ m k, k + m = l.length → strings root path k m = allStrings (l.drop k) := by
  intro m
  induction m with
  | zero => intro k hk; rw [List.drop_eq_nil_of_le (by omega)]; rfl
  | succ m ih =>
    intro k hk
    have hkl : k < l.length := by omega
    rw [List.drop_eq_getElem_cons hkl]
    simp only [strings, getString]
    rw [query_element root h hp he (by omega), List.getElem?_eq_getElem hkl]
    simp only
    cases hv : l[k] with
    | string s => simp only [allStrings]; rw [ih (k + 1) (by omega)]
    | _ => simp only [allStrings]

theorem texts_opt_eq (root : Root R) {path n : Bytes} {ns : List Bytes} (h : (n :: ns).all isNameB = true) (hp : path = n ++ dots ns) (hl : ∀ l, entry root (n :: ns) = .found (.array l) → l.length ≤ 9999990) :
    ((valueOr (getArraySizeOpt root path) 0).bind fun m => strings root path 0 m) = texts root (n :: ns) (some []) := by
  unfold getArraySizeOpt texts
  rw [query_dots root h hp]
  cases he : entry root (n :: ns) with
  | found v =>
    cases v with
    | array l =>
      simp only [valueOr, Option.bind_some]
      rw [strings_eq root h hp he (hl l he) l.length 0 (by omega), List.drop_zero]
    | _ => rfl
  | missing => rfl
  | error => rfl

theorem modules_eq (root : Root R) (hl : ∀ l, entry root [b! "modules"] = .found (.array l) → l.length ≤ 9999990) : modules root = texts root [b! "modules"] none := by
  unfold modules getArraySize texts
  have h : ([b! "modules"] : List Bytes).all isNameB = true := by decide
  have hp : b! "modules" = b! "modules" ++ dots [] := by simp [dots]
  rw [query_dots root h hp]
  cases he : entry root [b! "modules"] with
  | found v =>
    cases v with
    | array l => exact strings_eq root h hp he (hl l he) l.length 0 (by omega)
    | _ => rfl
  | missing => rfl
  | error => rfl

end Verif.Reload
