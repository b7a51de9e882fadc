import Verif.Spec.Zlib
/-!
# A simple compressor

It shows that what is expected of zlib is consistent: each byte is encoded as itself after a 1, and a flush adds an empty block.
-/
namespace Verif.Zlib.Toy

def expand : Bytes → Bytes
  | 1 :: b :: r => b :: expand r
  | 0 :: 0 :: 255 :: 255 :: r => expand r
  | _ => []

def Whole : Bytes → Bool
  | [] => true
  | 1 :: _ :: r => Whole r
  | 0 :: 0 :: 255 :: 255 :: r => Whole r
  | _ => false

def encode (b : Bytes) : Bytes := b.flatMap fun x => [1, x]

theorem expand_append (a b : Bytes) (h : Whole a = true) : expand (a ++ b) = expand a ++ expand b := by
  fun_induction Whole a with
  | case1 => rfl
  | case2 x r ih => simp only [List.cons_append, expand, ih h]
  | case3 r ih => simp only [List.cons_append, expand, ih h]
  | case4 => cases h

theorem whole_append (a b : Bytes) (h : Whole a = true) : Whole (a ++ b) = Whole b := by
  fun_induction Whole a with
  | case1 => rfl
  | case2 x r ih => simp only [List.cons_append, Whole, ih h]
  | case3 r ih => simp only [List.cons_append, Whole, ih h]
  | case4 => cases h

theorem expand_mono (a b : Bytes) : expand a <+: expand (a ++ b) := by
  fun_induction expand a with
  | case1 x r ih => simp only [List.cons_append, expand]; exact (List.prefix_cons_inj x).mpr ih
  | case2 r ih => simp only [List.cons_append, expand]; exact ih
  | case3 => exact List.nil_prefix

theorem encode_spec (b : Bytes) : Whole (encode b) = true ∧ expand (encode b) = b ∧ (encode b).length = 2 * b.length := by
  induction b with
  | nil => exact ⟨rfl, rfl, rfl⟩
  | cons x r ih =>
    have : encode (x :: r) = 1 :: x :: encode r := rfl
    rw [this]
    simp only [Whole, expand, ih.1, ih.2.1, List.length_cons, ih.2.2, true_and]
    omega

def codec : Codec where
  expand := expand
  Whole b := Whole b = true
  mono := expand_mono
  nil := ⟨rfl, rfl⟩
  append a b ha hb := ⟨by rw [whole_append a b ha]; exact hb, expand_append a b ha⟩

structure DState where
  inp : Bytes := []
  out : Bytes := []
  pend : Bytes := []
  dirty : Bool := false

structure DInv (s : DState) : Prop where
  whole : Whole (s.out ++ s.pend) = true
  expand : expand (s.out ++ s.pend) = s.inp
  clean : s.dirty = false → s.out ++ s.pend = [] ∨ marker <:+ s.out ++ s.pend

def dFill (s : DState) (fl : Flush) (i : Bytes) : DState :=
  let pend := s.pend ++ encode i
  let dirty := s.dirty || i ≠ []
  if fl ≠ .no ∧ dirty then { s with inp := s.inp ++ i, pend := pend ++ marker, dirty := false } else { s with inp := s.inp ++ i, pend := pend, dirty := dirty }

def dDrain (s : DState) (n : Nat) : DState := { s with out := s.out ++ s.pend.take n, pend := s.pend.drop n }

theorem dFill_inv {s : DState} (h : DInv s) (fl : Flush) (i : Bytes) : DInv (dFill s fl i) := by
  have h1 : Whole (s.out ++ (s.pend ++ encode i)) = true := by rw [← List.append_assoc, whole_append _ _ h.whole]; exact (encode_spec i).1
  have h2 : Toy.expand (s.out ++ (s.pend ++ encode i)) = s.inp ++ i := by rw [← List.append_assoc, expand_append _ _ h.whole, h.expand, (encode_spec i).2.1]
  unfold dFill
  simp only
  split
  · refine ⟨?_, ?_, fun _ => Or.inr ?_⟩
    · simp only
      rw [← List.append_assoc, whole_append _ _ h1]; rfl
    · simp only
      rw [← List.append_assoc, expand_append _ _ h1, h2]
      simp [marker, Toy.expand]
    · simp only
      rw [← List.append_assoc]; exact List.suffix_append _ _
  · refine ⟨h1, h2, fun hd => ?_⟩
    simp only [Bool.or_eq_false_iff, decide_eq_false_iff_not, Decidable.not_not] at hd
    obtain ⟨hd, rfl⟩ := hd
    simpa [encode] using h.clean hd

theorem dDrain_inv {s : DState} (h : DInv s) (n : Nat) : DInv (dDrain s n) := by
  have : (dDrain s n).out ++ (dDrain s n).pend = s.out ++ s.pend := by simp [dDrain]
  exact ⟨this ▸ h.whole, this ▸ h.expand, fun hd => this ▸ h.clean hd⟩

def D := { s : DState // DInv s }

def dErr (fl : Flush) (i p : Bytes) : Err := if i = [] ∧ p = [] then (if fl = .finish then .streamEnd else .bufError) else .ok

def deflator : Zlib D where
  call s fl i n := (⟨dDrain (dFill s.1 fl i) n, dDrain_inv (dFill_inv s.2 fl i) n⟩, i.length, (dFill s.1 fl i).pend.take n, dErr fl i ((dFill s.1 fl i).pend.take n))
  reset _ := ⟨{}, ⟨rfl, rfl, fun _ => Or.inl rfl⟩⟩

def dInit : D := ⟨{}, ⟨rfl, rfl, fun _ => Or.inl rfl⟩⟩

theorem dFill_io (s : DState) (fl : Flush) (i : Bytes) : (dFill s fl i).inp = s.inp ++ i ∧ (dFill s fl i).out = s.out := by
  unfold dFill; simp only; split <;> exact ⟨rfl, rfl⟩

def dWork (s : DState) (i : Bytes) : Nat := s.pend.length + 8 * i.length + if s.dirty then 5 else 0

theorem dFill_work (s : DState) (fl : Flush) (i r : Bytes) : dWork (dFill s fl i) r ≤ dWork s (i ++ r) ∧ (i ≠ [] → dWork (dFill s fl i) r < dWork s (i ++ r)) := by
  have hl := (encode_spec i).2.2
  unfold dFill dWork
  simp only
  cases i with
  | nil =>
    split
    · rename_i h
      have hd : s.dirty = true := by simpa using h.2
      simp [encode, hd, marker]
      omega
    · simp [encode]
  | cons x y =>
    have h2 : 8 * (x :: y ++ r).length = 8 * r.length + 8 * (x :: y).length := by simp; omega
    have h3 : 1 ≤ (x :: y).length := by simp
    rw [h2]
    split
    · simp only [List.length_append, hl, marker, Bool.false_eq_true, if_false, List.length_cons, List.length_nil] at *
      constructor
      · split <;> omega
      · intro _; split <;> omega
    · simp only [List.length_append, hl, List.length_cons] at *
      constructor
      · split <;> split <;> omega
      · intro _; split <;> split <;> omega

theorem idle_pend {s : DState} {fl : Flush} {i : Bytes} {n : Nat} (hn : 0 < n) (h : i = [] ∧ (dFill s fl i).pend.take n = []) : i = [] ∧ (dFill s fl i).pend = [] := by
  refine ⟨h.1, ?_⟩
  have := h.2
  simp only [List.take_eq_nil_iff] at this
  rcases this with h | h
  · omega
  · exact h

/-- If there is nothing to write when flushing, then everything has been written. -/
theorem flushed_all {s : D} {fl : Flush} {i : Bytes} {n : Nat} (hn : 0 < n) (hf : fl ≠ .no) (h : i = [] ∧ (dFill s.1 fl i).pend.take n = []) :
    (deflator.call s fl i n).1.1.pend = [] ∧ (deflator.call s fl i n).1.1.dirty = false := by
  obtain ⟨hi, hp⟩ := idle_pend hn h
  refine ⟨?_, ?_⟩
  · show (dFill s.1 fl i).pend.drop n = []
    rw [hp]; simp
  · show (dFill s.1 fl i).dirty = false
    unfold dFill at hp ⊢
    simp only at hp ⊢
    split
    · rfl
    · rename_i hh
      simp only [not_and, Bool.not_eq_true] at hh
      exact hh hf

theorem dErr_buf {fl : Flush} {i p : Bytes} (h : dErr fl i p = .bufError) : i = [] ∧ p = [] := by
  unfold dErr at h
  split at h
  · assumption
  · cases h

theorem dErr_end {fl : Flush} {i p : Bytes} (h : dErr fl i p = .streamEnd) : (i = [] ∧ p = []) ∧ fl = .finish := by
  unfold dErr at h
  split at h
  · split at h
    · exact ⟨by assumption, by assumption⟩
    · cases h
  · cases h

theorem dCall {s s' : D} {fl : Flush} {i p : Bytes} {n c : Nat} {e : Err} (h : deflator.call s fl i n = (s', c, p, e)) :
    (deflator.call s fl i n).1 = s' ∧ i.length = c ∧ (dFill s.1 fl i).pend.take n = p ∧ dErr fl i ((dFill s.1 fl i).pend.take n) = e :=
  ⟨congrArg (·.1) h, congrArg (·.2.1) h, congrArg (·.2.2.1) h, congrArg (·.2.2.2) h⟩

def deflates : RawDeflates deflator codec where
  inp s := s.1.inp
  out s := s.1.out
  work s _ i := dWork s.1 i
  bounds := by
    intro s fl i n s' c p e h
    replace h := dCall h
    obtain ⟨-, rfl, rfl, -⟩ := h
    exact ⟨Nat.le_refl _, by simp; omega⟩
  totals := by
    intro s fl i n s' c p e h _
    replace h := dCall h
    obtain ⟨rfl, rfl, rfl, -⟩ := h
    have := dFill_io s.1 fl i
    refine ⟨?_, ?_⟩
    · show (dFill s.1 fl i).inp = _
      rw [this.1, List.take_length]
    · show (dFill s.1 fl i).out ++ _ = _
      rw [this.2]
  progress := by
    intro s fl i n s' c p h hn r
    replace h := dCall h
    obtain ⟨rfl, rfl, rfl, he⟩ := h
    rw [List.drop_length, List.nil_append]
    have h1 := dFill_work s.1 fl i r
    have h2 : dWork (dDrain (dFill s.1 fl i) n) r + ((dFill s.1 fl i).pend.take n).length = dWork (dFill s.1 fl i) r := by
      have e1 : dWork (dDrain (dFill s.1 fl i) n) r = ((dFill s.1 fl i).pend.drop n).length + 8 * r.length + (if (dFill s.1 fl i).dirty then 5 else 0) := rfl
      have e2 : dWork (dFill s.1 fl i) r = (dFill s.1 fl i).pend.length + 8 * r.length + (if (dFill s.1 fl i).dirty then 5 else 0) := rfl
      rw [e1, e2, List.length_take, List.length_drop]; omega
    show dWork (dDrain (dFill s.1 fl i) n) r < dWork s.1 (i ++ r)
    unfold dErr at he
    split at he
    · split at he <;> cases he
    · rename_i hne
      by_cases hi : i = []
      · have : (dFill s.1 fl i).pend.take n ≠ [] := fun h => hne ⟨hi, h⟩
        have := List.length_pos_iff.mpr this
        omega
      · have := h1.2 hi; omega
  idle := by
    intro s fl i n s' c p h _
    replace h := dCall h
    exact (dErr_buf h.2.2.2).1
  flushed := by
    intro s fl n s' c p h hn hf
    replace h := dCall h
    obtain ⟨rfl, rfl, rfl, he⟩ := h
    have := flushed_all (s := s) hn (by rcases hf with rfl | rfl <;> simp) (dErr_buf he)
    have hv := (deflator.call s fl [] n).1.2
    have := hv.expand
    rw [(flushed_all (s := s) hn (by rcases hf with rfl | rfl <;> simp) (dErr_buf he)).1, List.append_nil] at this
    exact this
  finished := by
    intro s i n s' c p h hn
    replace h := dCall h
    obtain ⟨rfl, rfl, rfl, he⟩ := h
    have hv := (deflator.call s .finish i n).1.2
    have := hv.expand
    rw [(flushed_all (s := s) hn (by simp) (dErr_end he).1).1, List.append_nil] at this
    exact this
  noEnd := by
    intro s fl i n s' c p h
    replace h := dCall h
    exact (dErr_end h.2.2.2).2
  whole := by
    intro s n s' c p h hn
    replace h := dCall h
    obtain ⟨rfl, rfl, rfl, he⟩ := h
    have hf := flushed_all (s := s) hn (by simp) (dErr_buf he)
    have hv := (deflator.call s .sync [] n).1.2
    have h1 := hv.whole
    have h2 := hv.clean hf.2
    rw [hf.1, List.append_nil] at h1 h2
    exact ⟨h1, h2⟩
  reset := fun _ => ⟨rfl, rfl⟩

structure IState where
  inp : Bytes := []
  out : Bytes := []

def I := { s : IState // s.out <+: expand s.inp }

/-- What remains to be written. -/
def iNew (s : IState) (i : Bytes) : Bytes := (expand (s.inp ++ i)).drop s.out.length

theorem iNew_spec (s : I) (i : Bytes) : s.1.out ++ iNew s.1 i = expand (s.1.inp ++ i) := by
  obtain ⟨t, ht⟩ := s.2.trans (expand_mono s.1.inp i)
  rw [iNew, ← ht, List.drop_left]

def inflator : Zlib I where
  call s _ i n :=
    (⟨{ inp := s.1.inp ++ i, out := s.1.out ++ (iNew s.1 i).take n }, by
      show s.1.out ++ _ <+: expand (s.1.inp ++ i)
      rw [← iNew_spec]
      exact (List.prefix_append_right_inj _).mpr (List.take_prefix _ _)⟩,
      i.length, (iNew s.1 i).take n, if i = [] ∧ (iNew s.1 i).take n = [] then .bufError else .ok)
  reset _ := ⟨{}, List.nil_prefix⟩

def iInit : I := ⟨{}, List.nil_prefix⟩

theorem iCall {s s' : I} {fl : Flush} {i p : Bytes} {n c : Nat} {e : Err} (h : inflator.call s fl i n = (s', c, p, e)) :
    (inflator.call s fl i n).1 = s' ∧ i.length = c ∧ (iNew s.1 i).take n = p ∧ (if i = [] ∧ (iNew s.1 i).take n = [] then Err.bufError else .ok) = e :=
  ⟨congrArg (·.1) h, congrArg (·.2.1) h, congrArg (·.2.2.1) h, congrArg (·.2.2.2) h⟩

theorem iCall_state (s : I) (fl : Flush) (i : Bytes) (n : Nat) : (inflator.call s fl i n).1.1.inp = s.1.inp ++ i ∧ (inflator.call s fl i n).1.1.out = s.1.out ++ (iNew s.1 i).take n := ⟨rfl, rfl⟩

def inflates : RawInflates inflator codec where
  inp s := s.1.inp
  out s := s.1.out
  work s _ i := i.length + ((expand (s.1.inp ++ i)).length - s.1.out.length)
  bounds := by
    intro s fl i n s' c p e h
    replace h := iCall h
    obtain ⟨-, rfl, rfl, -⟩ := h
    exact ⟨Nat.le_refl _, by simp; omega⟩
  totals := by
    intro s fl i n s' c p e h _
    replace h := iCall h
    obtain ⟨rfl, rfl, rfl, -⟩ := h
    simp only [iCall_state, List.take_length, and_self]
  progress := by
    intro s fl i n s' c p h hn r
    replace h := iCall h
    obtain ⟨rfl, rfl, rfl, he⟩ := h
    simp only [iCall_state, List.drop_length, List.nil_append, List.append_assoc, List.length_append]
    split at he
    · cases he
    · rename_i hne
      have h1 := congrArg List.length (iNew_spec s i)
      have h2 := (expand_mono (s.1.inp ++ i) r).length_le
      simp only [List.length_append, List.append_assoc] at h1 h2
      by_cases hi : i = []
      · have : (iNew s.1 i).take n ≠ [] := fun h => hne ⟨hi, h⟩
        have := List.length_pos_iff.mpr this
        have h3 := List.length_take_le n (iNew s.1 i)
        have h4 : ((iNew s.1 i).take n).length ≤ (iNew s.1 i).length := by simp; omega
        omega
      · have := List.length_pos_iff.mpr hi
        omega
  idle := by
    intro s fl i n s' c p h _
    replace h := iCall h
    have he := h.2.2.2
    split at he
    · rename_i hh; exact hh.1
    · cases he
  correct := fun s i n s' c p e h _ => s'.2
  complete := by
    intro s i n s' c p e h hn he
    replace h := iCall h
    obtain ⟨rfl, rfl, rfl, rfl⟩ := h
    have hh : i = [] ∧ (iNew s.1 i).take n = [] := by
      rcases he with he | he
      · split at he
        · assumption
        · cases he
      · split at he <;> cases he
    rw [(iCall_state _ _ _ _).2, (iCall_state _ _ _ _).1, hh.2, List.append_nil]
    have hnil : iNew s.1 i = [] := by
      have := hh.2
      simp only [List.take_eq_nil_iff] at this
      rcases this with h | h
      · omega
      · exact h
    have := iNew_spec s i
    rw [hnil, List.append_nil] at this
    exact this
  valid := by
    intro s i n s' c p e h r _
    replace h := iCall h
    have he := h.2.2.2
    subst he
    constructor <;> split <;> simp

end Verif.Zlib.Toy
