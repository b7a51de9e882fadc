import Verif.Model.Uri
import Verif.Spec.Uri
import Verif.Proofs.Hex
namespace Verif.Uri
open Verif.Spec

theorem hexval_uuid (c : Byte) : hexval c = Uuid.hexval c := rfl

theorem hexval_iff (c : Byte) (v : Nat) : hexval c = some v ↔ HexDigit c v := Hex.hexval_iff c v

theorem hexDigit_lt {c : Byte} {v : Nat} (h : HexDigit c v) : v < 16 := by cases h <;> omega

/-- State of the segment machine: directory components and the unfinished segment. -/
def stStep (st : List Bytes × Bytes) (c : Byte) : List Bytes × Bytes :=
  if c = chr '/' then (enter st.1 st.2, []) else (st.1, st.2 ++ [c])

/-- Text of the machine's state, last character first. -/
def revText (st : List Bytes × Bytes) : Bytes := (dirText st.1 ++ st.2).reverse

def finish (st : List Bytes × Bytes) : Bytes :=
  if st.2 = [] ∨ st.2 = [chr '.'] ∨ st.2 = [chr '.', chr '.'] then dirText (enter st.1 st.2) else dirText st.1 ++ st.2

structure Ok (st : List Bytes × Bytes) : Prop where
  dirs : ∀ s ∈ st.1, PlainSegment s
  cur : chr '/' ∉ st.2

theorem dirText_snoc (ds : List Bytes) (s : Bytes) : dirText (ds ++ [s]) = dirText ds ++ s ++ [chr '/'] := by
  simp [dirText]

theorem dirText_rev_snoc (ds : List Bytes) (s : Bytes) :
    (dirText (ds ++ [s])).reverse = chr '/' :: (s.reverse ++ (dirText ds).reverse) := by
  simp [dirText_snoc]

/-- The reverse of a directory text starts with a slash. -/
theorem dirText_rev_head (ds : List Bytes) : ∃ X, (dirText ds).reverse = chr '/' :: X := by
  rcases List.eq_nil_or_concat ds with rfl | ⟨l, s, rfl⟩
  · exact ⟨[], rfl⟩
  · exact ⟨_, by rw [List.concat_eq_append, dirText_rev_snoc]⟩

theorem ok_step (st : List Bytes × Bytes) (h : Ok st) (c : Byte) : Ok (stStep st c) := by
  obtain ⟨dirs, cur⟩ := st
  obtain ⟨h1, h2⟩ := h
  simp only at h1 h2
  unfold stStep
  split
  · refine ⟨?_, by simp⟩
    simp only [enter]
    split
    · exact h1
    · split
      · intro s hs; exact h1 s (List.dropLast_subset _ hs)
      · rename_i h3 h4
        intro s hs
        rw [List.mem_append] at hs
        rcases hs with hs | hs
        · exact h1 s hs
        · simp at hs
          subst hs
          refine ⟨fun e => h3 (Or.inl e), fun e => h3 (Or.inr e), h4, h2⟩
  · rename_i hc
    refine ⟨h1, ?_⟩
    simp only [List.mem_append, List.mem_singleton]
    rintro (h | h)
    · exact h2 h
    · exact hc h.symm

theorem dropWhile_noslash (s X : Bytes) (hs : chr '/' ∉ s) :
    (s ++ chr '/' :: X).dropWhile (· != slash) = chr '/' :: X := by
  induction s with
  | nil => simp [slash]
  | cons a t ih =>
    simp only [List.mem_cons, not_or] at hs
    rw [List.cons_append, List.dropWhile_cons_of_pos (by simpa [slash] using Ne.symm hs.1)]
    exact ih hs.2

/-- Going up from a directory. -/
theorem pop_up (dirs : List Bytes) (h : ∀ s ∈ dirs, PlainSegment s) (k : Nat) (pre : Bytes) (hk : pre.length = k) :
    pop_dot_dot k (pre ++ (dirText dirs).reverse) = (dirText dirs.dropLast).reverse := by
  unfold pop_dot_dot
  simp only
  rw [← hk, List.drop_left]
  rcases List.eq_nil_or_concat dirs with rfl | ⟨ds, s, rfl⟩
  · simp [dirText]
  · rw [List.concat_eq_append] at h ⊢
    have hs := h s (by simp)
    rw [dirText_rev_snoc, List.dropLast_concat]
    obtain ⟨X, hX⟩ := dirText_rev_head ds
    rw [hX]
    simp only [List.length_cons, List.length_append, List.drop_succ_cons, List.drop_zero]
    rw [if_pos (by omega), dropWhile_noslash]
    simpa using hs.2.2.2

theorem canon_once_of_ne (a : Byte) (t : Bytes) (h : a ≠ chr '/') : canon_once (a :: t) = a :: t := by
  unfold canon_once
  have : ¬ slash = a := by simpa [slash] using Ne.symm h
  simp [this]

/-- L2: a finished segment is entered. -/
theorem canon_slash (st : List Bytes × Bytes) (h : Ok st) :
    canon_once (chr '/' :: revText st) = (dirText (enter st.1 st.2)).reverse ∧
    canon_final (chr '/' :: revText st) = (dirText (enter st.1 st.2)).reverse := by
  obtain ⟨dirs, cur⟩ := st
  obtain ⟨h1, h2⟩ := h
  simp only at h1 h2
  obtain ⟨X, hX⟩ := dirText_rev_head dirs
  have e0 : revText (dirs, cur) = cur.reverse ++ (dirText dirs).reverse := by simp [revText]
  have hds : ¬ dot = slash := by decide
  have hsd : ¬ slash = dot := by decide
  have hk : ∀ k : Bytes, k.reverse = cur → k = cur.reverse := by intro k hk; rw [← hk]; simp
  have d0 : chr '/' = slash := rfl
  have d1 : chr '.' = dot := rfl
  rw [e0]
  generalize hkk : cur.reverse = k
  have hcur : cur = k.reverse := by rw [← hkk]; simp
  have hns : slash ∉ k := by rw [← hkk]; simpa [d0] using h2
  subst hcur
  match k, hns with
  | [], _ =>
    simp only [enter, List.nil_append, hX, List.reverse_nil, true_or, if_true]
    constructor <;> simp [canon_once, canon_final, d0]
  | [a], hns =>
    have ha : ¬ slash = a := by simpa using hns
    have ha' : ¬ a = slash := fun e => ha e.symm
    by_cases hd : a = dot
    · subst hd
      simp only [enter, hX, d0, d1]
      constructor <;> simp [canon_once, canon_final, hsd, hds, hX, d0]
    · have hd' : ¬ dot = a := fun e => hd e.symm
      have henter : enter dirs [a].reverse = dirs ++ [[a]] := by
        simp [enter, d1, hd]
      rw [henter, dirText_rev_snoc]
      constructor <;> simp [canon_once, canon_final, ha, hd', d0, hds, hX]
  | [a, b], hns =>
    have ha : ¬ slash = a ∧ ¬ slash = b := by simpa using hns
    by_cases hd : a = dot ∧ b = dot
    · obtain ⟨rfl, rfl⟩ := hd
      have henter : enter dirs [dot, dot].reverse = dirs.dropLast := by
        simp [enter, d1]
      rw [henter]
      have hp := pop_up dirs h1 3 [slash, dot, dot] rfl
      rw [hX] at hp
      constructor
      · simp only [canon_once, d0, hX] at *
        simpa [hsd, hds] using hp
      · simp only [canon_final, d0, hX] at *
        simpa [hsd, hds] using hp
    · have henter : enter dirs [a, b].reverse = dirs ++ [[b, a]] := by
        have : ¬ (b = dot ∧ a = dot) := fun e => hd ⟨e.2, e.1⟩
        simp [enter, d1, this]
      rw [henter, dirText_rev_snoc]
      have hd2 : ¬ (dot = a ∧ dot = b) := fun e => hd ⟨e.1.symm, e.2.symm⟩
      constructor <;> simp [canon_once, canon_final, ha, d0, hds, hX] <;> intro e1 e2 <;> exact absurd ⟨e1, e2⟩ hd2
  | a :: b :: c :: t, hns =>
    have ha : ¬ slash = a ∧ ¬ slash = b ∧ ¬ slash = c := by
      simp only [List.mem_cons, not_or] at hns
      exact ⟨hns.1, hns.2.1, hns.2.2.1⟩
    have henter : enter dirs (a :: b :: c :: t).reverse = dirs ++ [(a :: b :: c :: t).reverse] := by
      unfold enter
      rw [if_neg, if_neg]
      · intro e; have := congrArg List.length e; simp at this
      · rintro (e | e) <;> have := congrArg List.length e <;> simp at this
    rw [henter, dirText_rev_snoc]
    constructor <;> simp [canon_once, canon_final, ha, d0, hds]

/-- L1: nothing to do while a segment is unfinished or just entered. -/
theorem canon_stable (st : List Bytes × Bytes) (h : Ok st) : canon_once (revText st) = revText st := by
  obtain ⟨dirs, cur⟩ := st
  have e0 : revText (dirs, cur) = cur.reverse ++ (dirText dirs).reverse := by simp [revText]
  rcases List.eq_nil_or_concat cur with rfl | ⟨cs, a, rfl⟩
  · rw [e0]
    simp only [List.reverse_nil, List.nil_append]
    rcases List.eq_nil_or_concat dirs with rfl | ⟨ds, s, rfl⟩
    · decide
    · rw [List.concat_eq_append] at h ⊢
      have hs := h.dirs s (by simp)
      have hok : Ok (ds, s) := ⟨fun x hx => h.dirs x (by simp [hx]), hs.2.2.2⟩
      have := (canon_slash (ds, s) hok).1
      have he : enter ds s = ds ++ [s] := by
        unfold enter
        rw [if_neg, if_neg hs.2.2.1]
        rintro (e | e)
        · exact hs.1 e
        · exact hs.2.1 e
      rw [he] at this
      simp only [revText, dirText_rev_snoc, List.reverse_append] at this ⊢
      exact this
  · rw [e0]
    simp only [List.concat_eq_append, List.reverse_append, List.reverse_cons, List.reverse_nil, List.nil_append,
      List.cons_append]
    apply canon_once_of_ne
    have := h.cur
    simp only [List.concat_eq_append, List.mem_append, List.mem_singleton, not_or] at this
    exact fun e => this.2 e.symm

theorem canon_final_cur (st : List Bytes × Bytes) (h : Ok st) (hc : st.2 ≠ []) :
    canon_final (revText st) = (finish st).reverse := by
  obtain ⟨dirs, cur⟩ := st
  obtain ⟨h1, h2⟩ := h
  simp only at h1 h2 hc
  obtain ⟨X, hX⟩ := dirText_rev_head dirs
  have e0 : revText (dirs, cur) = cur.reverse ++ (dirText dirs).reverse := by simp [revText]
  have hds : ¬ dot = slash := by decide
  have hsd : ¬ slash = dot := by decide
  have d0 : chr '/' = slash := rfl
  have d1 : chr '.' = dot := rfl
  have e1 : (dirText dirs ++ cur).reverse = cur.reverse ++ (dirText dirs).reverse := by simp
  rw [e0]
  unfold finish
  simp only
  generalize hkk : cur.reverse = k at *
  have hcur : cur = k.reverse := by rw [← hkk]; simp
  have hns : slash ∉ k := by rw [← hkk]; simpa [d0] using h2
  subst hcur
  match k, hns with
  | [], _ => simp at hc
  | [a], hns =>
    have ha : ¬ slash = a := by simpa using hns
    by_cases hd : a = dot
    · subst hd
      simp [canon_final, hX, hsd, d0, d1, enter]
    · have hd' : ¬ dot = a := fun e => hd e.symm
      rw [if_neg (by simp [d1, hd]), e1]
      simp [canon_final, ha, hd']
  | [a, b], hns =>
    have ha : ¬ slash = a ∧ ¬ slash = b := by simpa using hns
    by_cases hd : a = dot ∧ b = dot
    · obtain ⟨rfl, rfl⟩ := hd
      have henter : enter dirs [dot, dot].reverse = dirs.dropLast := by simp [enter, d1]
      rw [if_pos (by simp [d1]), henter]
      have hp := pop_up dirs h1 2 [dot, dot] rfl
      rw [hX] at hp ⊢
      simp only [canon_final, d0] at *
      simpa [hsd, hds] using hp
    · have hd1 : ¬ (b = dot ∧ a = dot) := fun e => hd ⟨e.2, e.1⟩
      have hd2 : ¬ (dot = a ∧ dot = b) := fun e => hd ⟨e.1.symm, e.2.symm⟩
      rw [if_neg (by simp [d1, hd1]), e1]
      simp [canon_final, ha, hX]
      intro e1 e2
      exact absurd ⟨e1, e2⟩ hd2
  | a :: b :: c :: t, hns =>
    have ha : ¬ slash = a ∧ ¬ slash = b ∧ ¬ slash = c := by
      simp only [List.mem_cons, not_or] at hns
      exact ⟨hns.1, hns.2.1, hns.2.2.1⟩
    rw [if_neg, e1]
    · simp [canon_final, ha]
    · rintro (e | e | e) <;> have := congrArg List.length e <;> simp at this

/-- The relation between the reversed result and the machine's state. -/
structure Rel (r : Bytes) (st : List Bytes × Bytes) : Prop where
  ok : Ok st
  once : canon_once r = revText st
  final : canon_final r = (finish st).reverse

theorem rel_init : Rel [slash] ([], []) where
  ok := ⟨by simp, by simp⟩
  once := by decide
  final := by decide

theorem rel_step (r : Bytes) (st : List Bytes × Bytes) (h : Rel r st) (c : Byte) : Rel (c :: canon_once r) (stStep st c) := by
  have hok := ok_step st h.ok c
  rw [h.once]
  by_cases hc : c = chr '/'
  · subst hc
    obtain ⟨h1, h2⟩ := canon_slash st h.ok
    have e : stStep st (chr '/') = (enter st.1 st.2, []) := by simp [stStep]
    refine ⟨hok, ?_, ?_⟩
    · rw [h1, e]; simp [revText]
    · rw [h2, e]; simp [finish, enter]
  · have e : stStep st c = (st.1, st.2 ++ [c]) := by simp [stStep, hc]
    have e2 : c :: revText st = revText (stStep st c) := by rw [e]; simp [revText]
    refine ⟨hok, ?_, ?_⟩
    · rw [e2]; exact canon_stable _ hok
    · rw [e2]; exact canon_final_cur _ hok (by rw [e]; simp)

theorem ofNat_shl_or (x y : Nat) (hy : y < 16) : ((x <<< 4) ||| y) = 16 * x + y := by
  rw [← Nat.shiftLeft_add_eq_or_of_lt (by omega : y < 2 ^ 4), Nat.shiftLeft_eq]; omega

theorem hex_not_percent {a : Byte} {x : Nat} (h : HexDigit a x) : True := trivial

/-- Running the loop over a well-formed prefix. -/
theorem decode_prefix {s d : Bytes} (h : PercentDecodes s d) : ∀ (r : Bytes) (st : List Bytes × Bytes) (rest : Bytes), Rel r st →
    ∃ r', Rel r' (d.foldl stStep st) ∧ decode_loop (s ++ rest) r = decode_loop rest r' := by
  induction h with
  | nil => intro r st rest hr; exact ⟨r, hr, rfl⟩
  | @plain c s d hc _ ih =>
    intro r st rest hr
    obtain ⟨r', hr', he⟩ := ih (c :: canon_once r) (stStep st c) rest (rel_step r st hr c)
    refine ⟨r', hr', ?_⟩
    rw [List.cons_append, decode_loop.eq_def]
    simp only [if_neg hc]
    exact he
  | @escape a b x y s d ha hb _ ih =>
    intro r st rest hr
    obtain ⟨r', hr', he⟩ := ih (UInt8.ofNat (16 * x + y) :: canon_once r) (stStep st (UInt8.ofNat (16 * x + y))) rest
      (rel_step r st hr _)
    refine ⟨r', hr', ?_⟩
    rw [List.cons_append, List.cons_append, List.cons_append, decode_loop.eq_def]
    simp only [if_true, (hexval_iff a x).mpr ha, (hexval_iff b y).mpr hb]
    rw [ofNat_shl_or x y (hexDigit_lt hb)]
    exact he

theorem decode_bad {s : Bytes} (h : BadEscape s) (r : Bytes) : decode_loop s r = canon_once r := by
  obtain ⟨t, rfl, hn⟩ := h
  rw [decode_loop.eq_def]
  simp only [if_true]
  match t, hn with
  | [], _ => rfl
  | [a], _ => rfl
  | a :: b :: t', hn =>
    simp only
    cases ha : hexval a with
    | none => rfl
    | some x =>
      cases hb : hexval b with
      | none => rfl
      | some y =>
        exact absurd ⟨a, b, x, y, t', rfl, (hexval_iff a x).mp ha, (hexval_iff b y).mp hb⟩ hn

theorem decode_good {s d : Bytes} (h : PercentDecodes s d) :
    decode_and_canonicalize_uri_path s = finish (d.foldl stStep ([], [])) := by
  obtain ⟨r', hr', he⟩ := decode_prefix h [slash] ([], []) [] rel_init
  unfold decode_and_canonicalize_uri_path
  rw [List.append_nil] at he
  rw [he]
  simp only [decode_loop, hr'.final, List.reverse_reverse]

theorem decode_malformed {s1 s2 d : Bytes} (h : PercentDecodes s1 d) (hb : BadEscape s2) :
    decode_and_canonicalize_uri_path (s1 ++ s2)
      = dirText (d.foldl stStep ([], [])).1 ++ (d.foldl stStep ([], [])).2 := by
  obtain ⟨r', hr', he⟩ := decode_prefix h [slash] ([], []) s2 rel_init
  unfold decode_and_canonicalize_uri_path
  rw [he, decode_bad hb, hr'.once]
  simp [revText]

/-- Every text is well-formed or has a first malformed escape. -/
theorem decode_cases (s : Bytes) : (∃ d, PercentDecodes s d) ∨ ∃ s1 s2 d, s = s1 ++ s2 ∧ PercentDecodes s1 d ∧ BadEscape s2 := by
  match s with
  | [] => exact Or.inl ⟨[], .nil⟩
  | c :: t =>
    by_cases hc : c = chr '%'
    · subst hc
      by_cases hb : ∃ a b x y t', t = a :: b :: t' ∧ HexDigit a x ∧ HexDigit b y
      · obtain ⟨a, b, x, y, t', rfl, ha, hb⟩ := hb
        rcases decode_cases t' with ⟨d, hd⟩ | ⟨s1, s2, d, rfl, h1, h2⟩
        · exact Or.inl ⟨_, .escape ha hb hd⟩
        · exact Or.inr ⟨chr '%' :: a :: b :: s1, s2, _, rfl, .escape ha hb h1, h2⟩
      · exact Or.inr ⟨[], _, [], rfl, .nil, ⟨t, rfl, hb⟩⟩
    · rcases decode_cases t with ⟨d, hd⟩ | ⟨s1, s2, d, rfl, h1, h2⟩
      · exact Or.inl ⟨_, .plain hc hd⟩
      · exact Or.inr ⟨c :: s1, s2, _, rfl, .plain hc h1, h2⟩
termination_by s.length

/-- The segment machine against the splitting of the whole text. -/
theorem machine_split (d : Bytes) : ∀ (dirs : List Bytes) (cur : Bytes), ∃ p ps, splitSlash d = p :: ps ∧
    d.foldl stStep (dirs, cur) = (((cur ++ p) :: ps).dropLast.foldl enter dirs, ((cur ++ p) :: ps).getLast (by simp)) := by
  induction d with
  | nil => intro dirs cur; exact ⟨[], [], rfl, by simp⟩
  | cons c t ih =>
    intro dirs cur
    by_cases hc : c = chr '/'
    · subst hc
      obtain ⟨p, ps, h1, h2⟩ := ih (enter dirs cur) []
      refine ⟨[], p :: ps, by simp [splitSlash, h1], ?_⟩
      simp only [List.foldl_cons, stStep, if_true]
      rw [h2]
      simp
    · obtain ⟨p, ps, h1, h2⟩ := ih dirs (cur ++ [c])
      refine ⟨c :: p, ps, by simp [splitSlash, hc, h1], ?_⟩
      simp only [List.foldl_cons, stStep, if_neg hc]
      rw [h2]
      simp

theorem finish_machine (d : Bytes) : finish (d.foldl stStep ([], [])) = canonicalPath d := by
  obtain ⟨p, ps, h1, h2⟩ := machine_split d [] []
  rw [h2]
  unfold canonicalPath
  rw [h1]
  simp only [List.nil_append]
  rw [List.getLast?_eq_some_getLast (by simp : p :: ps ≠ [])]
  simp only [finish]

theorem ok_foldl (d : Bytes) (st : List Bytes × Bytes) (h : Ok st) : Ok (d.foldl stStep st) := by
  induction d generalizing st with
  | nil => exact h
  | cons c t ih => exact ih _ (ok_step st h c)

/-! ### Encoding -/

theorem percentDecodes_append {a b x y : Bytes} (h : PercentDecodes a x) (h' : PercentDecodes b y) :
    PercentDecodes (a ++ b) (x ++ y) := by
  induction h with
  | nil => exact h'
  | plain hc _ ih => exact .plain hc ih
  | escape ha hb _ ih => exact .escape ha hb ih

theorem hexdigit_spec : ∀ v : Fin 16, Uuid.hexval (hexdigit v.val) = some v.val := by decide

theorem nibbles : ∀ c : Byte, ((c >>> 4) &&& 0x0F).toNat < 16 ∧ (c &&& 0x0F).toNat < 16 ∧
    UInt8.ofNat (16 * ((c >>> 4) &&& 0x0F).toNat + (c &&& 0x0F).toNat) = c :=
  forall_byte (by decide +kernel)

theorem safe_not_percent : ∀ c : Byte, isSafePathChar c = true → c ≠ chr '%' :=
  forall_byte (by decide +kernel)

theorem encode_decodes (p : Bytes) : PercentDecodes (p.flatMap (fun c =>
    if isSafePathChar c then [c] else [chr '%', hexdigit ((c >>> 4) &&& 0x0F).toNat, hexdigit (c &&& 0x0F).toNat])) p := by
  induction p with
  | nil => exact .nil
  | cons c t ih =>
    rw [List.flatMap_cons]
    have : PercentDecodes (if isSafePathChar c then [c] else
        [chr '%', hexdigit ((c >>> 4) &&& 0x0F).toNat, hexdigit (c &&& 0x0F).toNat]) [c] := by
      split
      · rename_i h; exact .plain (safe_not_percent c h) .nil
      · obtain ⟨h1, h2, h3⟩ := nibbles c
        have := PercentDecodes.escape ((Hex.hexval_iff _ _).mp (hexdigit_spec ⟨_, h1⟩))
          ((Hex.hexval_iff _ _).mp (hexdigit_spec ⟨_, h2⟩)) PercentDecodes.nil
        simp only at this
        rw [h3] at this
        exact this
    exact percentDecodes_append this ih

end Verif.Uri
