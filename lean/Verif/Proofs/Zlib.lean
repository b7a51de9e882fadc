import Verif.Spec.Zlib
namespace Verif.Zlib

/-- A loop ends, if something decreases with each iteration. -/
theorem loop_ind {round : Wrap S → Bytes → Option (Wrap S × Nat × Err)} {l : Loop} (P : Wrap S → Bytes → Prop) (Q : Out S → Prop) (μ : Wrap S → Bytes → Nat)
    (h0 : ∀ w i, P w i → round w i = none → Q (.threw w))
    (h1 : ∀ w i w' c e, P w i → round w i = some (w', c, e) → e ∉ l.good ∨ l.limit.any (w'.buf.length > ·) = true → Q (.threw w'))
    (h2 : ∀ w i w' c, P w i → round w i = some (w', c, .ok) → l.limit.any (w'.buf.length > ·) = false → P w' (i.drop c) ∧ μ w' (i.drop c) < μ w i)
    (h3 : ∀ w i w' c e, P w i → round w i = some (w', c, e) → e ∈ l.good → l.limit.any (w'.buf.length > ·) = false → (e = .ok → l.atEnd = true ∧ i.drop c = []) → Q (.done w' (i.drop c) e)) :
    ∀ w i, P w i → ∃ n, ∀ m, n ≤ m → Q (loop round l m w i) := by
  intro w i hp
  generalize hk : μ w i = k
  induction k using Nat.strongRecOn generalizing w i with
  | ind k ih =>
    cases hr : round w i with
    | none =>
      refine ⟨1, fun m hm => ?_⟩
      obtain ⟨m, rfl⟩ : ∃ j, m = j + 1 := ⟨m - 1, by omega⟩
      simp only [loop, hr]
      exact h0 w i hp hr
    | some x =>
      obtain ⟨w', c, e⟩ := x
      by_cases hb : e ∉ l.good ∨ l.limit.any (w'.buf.length > ·) = true
      · refine ⟨1, fun m hm => ?_⟩
        obtain ⟨m, rfl⟩ : ∃ j, m = j + 1 := ⟨m - 1, by omega⟩
        simp only [loop, hr]
        have := h1 w i w' c e hp hr hb
        split
        · exact this
        · rename_i hg
          rw [if_pos (hb.resolve_left hg)]
          exact this
      · have hg : e ∈ l.good := Classical.byContradiction fun h => hb (Or.inl h)
        have hl : l.limit.any (w'.buf.length > ·) = false := by
          cases h : l.limit.any (w'.buf.length > ·) with
          | true => exact absurd (Or.inr h) hb
          | false => rfl
        by_cases hc : ((!l.atEnd || decide (i.drop c ≠ [])) && decide (e = .ok)) = true
        · have he : e = .ok := by simp only [Bool.and_eq_true, decide_eq_true_eq] at hc; exact hc.2
          subst he
          obtain ⟨hp', hm'⟩ := h2 w i w' c hp hr hl
          obtain ⟨n, hn⟩ := ih _ (hk ▸ hm') w' (i.drop c) hp' rfl
          refine ⟨n + 1, fun m hm => ?_⟩
          obtain ⟨m, rfl⟩ : ∃ j, m = j + 1 := ⟨m - 1, by omega⟩
          simp only [loop, hr]
          rw [if_neg (fun h => h hg), hl, if_neg (by simp), if_pos (by simpa using hc)]
          exact hn m (by omega)
        · refine ⟨1, fun m hm => ?_⟩
          obtain ⟨m, rfl⟩ : ∃ j, m = j + 1 := ⟨m - 1, by omega⟩
          simp only [loop, hr]
          rw [if_neg (fun h => h hg), hl, if_neg (by simp), if_neg hc]
          refine h3 w i w' c e hp hr hg hl fun he => ?_
          simp only [he, decide_true, Bool.and_true, Bool.or_eq_true, Bool.not_eq_true', decide_eq_true_eq, not_or] at hc
          exact ⟨by simpa using hc.1, Classical.byContradiction fun h => hc.2 h⟩

/-- The body of a loop calls zlib with some room, and keeps exactly what has been written. -/
def IsRound (z : Zlib S) (fl : Flush) (round : Wrap S → Bytes → Option (Wrap S × Nat × Err)) : Prop :=
  ∀ w i, round w i = none ∨ ∃ n, 0 < n ∧ ∀ s' c p e, callZlib z w.strm fl i n = (s', c, p, e) → round w i = some ({ strm := s', buf := w.buf ++ p }, c, e)

theorem accept_isRound (z : Zlib S) {grow : Bytes → Nat → Nat} (hg : ∀ b r, r ≤ grow b r) {request : Nat} (hr : 0 < request) (fl : Flush) : IsRound z fl (acceptRound z grow request fl) := by
  intro w i
  refine Or.inr ⟨grow w.buf request, Nat.lt_of_lt_of_le hr (hg _ _), fun s' c p e h => ?_⟩
  simp only [acceptRound, h]

theorem callZlib_spec {z : Zlib S} (hz : Stream z) {s s' : S} {fl : Flush} {i : Bytes} {n c : Nat} {p : Bytes} {e : Err} (h : callZlib z s fl i n = (s', c, p, e)) (hn : 0 < n) :
    c ≤ i.length ∧ p.length ≤ n ∧ (e ≠ .other → hz.inp s' = hz.inp s ++ i.take c ∧ hz.out s' = hz.out s ++ p) ∧ (e = .ok → hz.work s' fl (i.drop c) < hz.work s fl i) ∧
      (e = .bufError → i = []) := by
  unfold callZlib at h
  have hb := hz.bounds _ _ _ _ _ _ _ _ h
  have hm : 0 < min n intMax := by unfold intMax; omega
  have hc : c ≤ i.length := by have := hb.1; simp at this; omega
  refine ⟨hc, by have := hb.2; omega, fun he => ?_, fun he => ?_, fun he => ?_⟩
  · have := hz.totals _ _ _ _ _ _ _ _ h he
    rw [List.take_take, Nat.min_eq_left (by have := hb.1; simp at this; omega)] at this
    exact this
  · subst he
    have := hz.progress _ _ _ _ _ _ _ h hm (i.drop intMax)
    rw [List.take_append_drop] at this
    have e2 : (i.take intMax).drop c ++ i.drop intMax = i.drop c := by
      have h1 := hb.1
      conv => rhs; rw [← List.take_append_drop intMax i]
      rw [List.drop_append_of_le_length h1]
    rw [e2] at this
    exact this
  · subst he
    have := hz.idle _ _ _ _ _ _ _ h hm
    cases i with
    | nil => rfl
    | cons a r => simp [intMax] at this

theorem trunc_isRound (z : Zlib S) (hz : Stream z) (grow : Bytes → Nat → Nat) {request : Nat} (hr : 0 < request) (fl : Flush) : IsRound z fl (truncRound z grow request fl) := by
  intro w i
  unfold truncRound
  simp only
  by_cases hs : grow w.buf request < request
  · left; rw [if_pos hs]
  · right
    refine ⟨grow w.buf request, by omega, fun s' c p e h => ?_⟩
    have hb := (callZlib_spec hz h (by omega)).2.1
    rw [if_neg hs, h]
    simp only
    congr 3
    have e1 : (w.buf ++ List.replicate (grow w.buf request) (0 : UInt8)).drop (w.buf.length + p.length) = List.replicate (grow w.buf request - p.length) 0 := by
      rw [List.drop_append, List.drop_replicate, List.drop_eq_nil_of_le (by omega), List.nil_append]
      congr 1; omega
    rw [e1]
    split
    · have : (w.buf ++ p ++ List.replicate (grow w.buf request - p.length) (0 : UInt8)).length - (grow w.buf request - p.length) = (w.buf ++ p).length := by simp; omega
      rw [this, List.take_left']
      rfl
    · rename_i h0
      have : grow w.buf request - p.length = 0 := Classical.byContradiction h0
      rw [this]; simp

/-- What a loop has done so far: it has consumed some of its input, and kept all output. -/
def Kept {z : Zlib S} (hz : Stream z) (w : Wrap S) (i : Bytes) (w' : Wrap S) (r : Bytes) : Prop :=
  ∃ used new, i = used ++ r ∧ hz.inp w'.strm = hz.inp w.strm ++ used ∧ hz.out w'.strm = hz.out w.strm ++ new ∧ w'.buf = w.buf ++ new

theorem Kept.refl {z : Zlib S} (hz : Stream z) (w : Wrap S) (i : Bytes) : Kept hz w i w i := ⟨[], [], rfl, by simp, by simp, by simp⟩

theorem Kept.next {z : Zlib S} (hz : Stream z) {w w' : Wrap S} {i r : Bytes} (hk : Kept hz w i w' r) {c : Nat} {s' : S} {p : Bytes} (hc : c ≤ r.length)
    (ht : hz.inp s' = hz.inp w'.strm ++ r.take c ∧ hz.out s' = hz.out w'.strm ++ p) : Kept hz w i { strm := s', buf := w'.buf ++ p } (r.drop c) := by
  obtain ⟨u, nw, h1, h2, h3, h4⟩ := hk
  refine ⟨u ++ r.take c, nw ++ p, ?_, ?_, ?_, ?_⟩
  · rw [h1, List.append_assoc, List.take_append_drop]
  · rw [ht.1, h2, List.append_assoc]
  · rw [ht.2, h3, List.append_assoc]
  · simp only [h4, List.append_assoc]

/-- Nothing makes a loop throw. -/
def Safe {z : Zlib S} (hz : Stream z) (round : Wrap S → Bytes → Option (Wrap S × Nat × Err)) (l : Loop) (w : Wrap S) (i : Bytes) : Prop :=
  ∀ w1 r1, Kept hz w i w1 r1 → ∃ w' c e, round w1 r1 = some (w', c, e) ∧ e ∈ l.good ∧ l.limit.any (w'.buf.length > ·) = false

/-- How a loop ends, and what is known of the last call. -/
def Ends {z : Zlib S} (hz : Stream z) (fl : Flush) (round : Wrap S → Bytes → Option (Wrap S × Nat × Err)) (l : Loop) (w : Wrap S) (i : Bytes) (o : Out S) : Prop :=
  (∃ w', o = .threw w' ∧ ¬ Safe hz round l w i) ∨
  ∃ w' r e, o = .done w' r e ∧ Kept hz w i w' r ∧ e ∈ l.good ∧ (e = .ok → l.atEnd = true ∧ r = []) ∧ (e = .bufError → r = []) ∧
    ∃ s n i' c p, 0 < n ∧ z.call s fl i' n = (w'.strm, c, p, e) ∧ (e = .bufError → i' = [])

theorem loop_spec {z : Zlib S} (hz : Stream z) {round : Wrap S → Bytes → Option (Wrap S × Nat × Err)} {fl : Flush} (hr : IsRound z fl round) {l : Loop} (hg : .other ∉ l.good)
    (w : Wrap S) (i : Bytes) : ∃ n, ∀ m, n ≤ m → Ends hz fl round l w i (loop round l m w i) := by
  refine loop_ind (Kept hz w i) (Ends hz fl round l w i) (fun w i => hz.work w.strm fl i) ?_ ?_ ?_ ?_ w i (Kept.refl hz w i)
  · intro w' i' hk hn
    refine Or.inl ⟨_, rfl, fun hs => ?_⟩
    obtain ⟨_, _, _, h, _⟩ := hs w' i' hk
    rw [hn] at h; cases h
  · intro w1 i1 w' c e hk hrd hb
    refine Or.inl ⟨_, rfl, fun hs => ?_⟩
    obtain ⟨_, _, _, h, h1, h2⟩ := hs w1 i1 hk
    rw [hrd] at h; cases h
    rcases hb with hb | hb
    · exact hb h1
    · rw [h2] at hb; cases hb
  · intro w1 i1 w' c hk hrd _
    rcases hr w1 i1 with h | ⟨n, hn, h⟩
    · rw [h] at hrd; cases hrd
    · rcases hcall : callZlib z w1.strm fl i1 n with ⟨s', c', p, e⟩
      rw [h _ _ _ _ hcall] at hrd
      cases hrd
      have := callZlib_spec hz hcall hn
      exact ⟨hk.next hz this.1 (this.2.2.1 (by simp)), this.2.2.2.1 rfl⟩
  · intro w1 i1 w' c e hk hrd hge _ he
    right
    rcases hr w1 i1 with h | ⟨n, hn, h⟩
    · rw [h] at hrd; cases hrd
    · rcases hcall : callZlib z w1.strm fl i1 n with ⟨s', c', p, e'⟩
      rw [h _ _ _ _ hcall] at hrd
      cases hrd
      have := callZlib_spec hz hcall hn
      have hne : e ≠ .other := fun h => hg (h ▸ hge)
      refine ⟨_, _, _, rfl, hk.next hz this.1 (this.2.2.1 hne), hge, he, fun hb => ?_, ?_⟩
      · rw [this.2.2.2.2 hb]; simp
      · refine ⟨w1.strm, min n intMax, i1.take intMax, c, p, by unfold intMax; omega, hcall, fun hb => ?_⟩
        rw [this.2.2.2.2 hb]; simp

theorem loop_mono {round : Wrap S → Bytes → Option (Wrap S × Nat × Err)} {l : Loop} {n m : Nat} (h : n ≤ m) {w : Wrap S} {i : Bytes} (hn : loop round l n w i ≠ .stuck) :
    loop round l m w i = loop round l n w i := by
  induction n generalizing m w i with
  | zero => exact absurd rfl hn
  | succ n ih =>
    obtain ⟨m, rfl⟩ : ∃ j, m = j + 1 := ⟨m - 1, by omega⟩
    simp only [loop] at hn ⊢
    split
    · rfl
    · rename_i w' c e hr
      simp only [hr] at hn
      split
      · rfl
      · rename_i h1
        split
        · rfl
        · rename_i h2
          split
          · rename_i h3
            rw [if_neg h1, if_neg h2, if_pos h3] at hn
            exact ih (by omega) hn
          · rfl

/-- A loop ends in one way. -/
theorem loop_ends {z : Zlib S} (hz : Stream z) {round : Wrap S → Bytes → Option (Wrap S × Nat × Err)} {fl : Flush} (hr : IsRound z fl round) {l : Loop} (hg : .other ∉ l.good)
    (w : Wrap S) (i : Bytes) : ∃ n o, (∀ m, n ≤ m → loop round l m w i = o) ∧ Ends hz fl round l w i o := by
  obtain ⟨n, h⟩ := loop_spec hz hr hg w i
  refine ⟨n, _, fun m hm => loop_mono hm ?_, h n (Nat.le_refl _)⟩
  rcases h n (Nat.le_refl _) with ⟨_, h, _⟩ | ⟨_, _, _, h, _⟩ <;> rw [h] <;> simp

/-! ### Messages -/

theorem strip_append {a b : Bytes} (ha : a = [] ∨ marker <:+ a) (hab : marker <:+ a ++ b) (hb : b ≠ []) : ∃ c, b = c ++ marker ∧ strip b = c := by
  have key : marker <:+ b := by
    by_cases hl : 4 ≤ b.length
    · have h1 : b <:+ a ++ b := List.suffix_append a b
      exact List.suffix_of_suffix_length_le hab h1 (by simpa [marker] using hl)
    · rcases ha with rfl | ⟨x, rfl⟩
      · simpa using hab
      · exfalso
        obtain ⟨y, hy⟩ := hab
        match b, hb, hl with
        | [u], _, _ =>
          have := congrArg List.reverse hy
          simp [marker] at this
        | [u, v], _, _ =>
          have := congrArg List.reverse hy
          simp [marker] at this
        | [u, v, t], _, _ =>
          have := congrArg List.reverse hy
          simp [marker] at this
        | _ :: _ :: _ :: _ :: _, _, hl => simp at hl
  obtain ⟨c, rfl⟩ := key
  refine ⟨c, rfl, ?_⟩
  have h1 : (c ++ marker).length - 4 = c.length := by simp [marker]
  unfold strip
  rw [h1, List.drop_left, List.take_left, if_pos ⟨by simp [marker], rfl⟩]

/-- A sender and a receiver agree on what has been sent. -/
structure Agree {zs : Zlib S} {zr : Zlib R} {codec : Codec} (hs : RawDeflates zs codec) (hr : RawInflates zr codec) (s : S) (r : R) : Prop where
  whole : codec.Whole (hs.out s)
  expand : codec.expand (hs.out s) = hs.inp s
  marked : hs.out s = [] ∨ marker <:+ hs.out s
  before : ∃ x, codec.Whole x ∧ hr.inp r = x ++ hs.out s
  output : hr.out r = codec.expand (hr.inp r)

theorem Agree.reset {zs : Zlib S} {zr : Zlib R} {codec : Codec} {hs : RawDeflates zs codec} {hr : RawInflates zr codec} {s : S} {r : R} (h : Agree hs hr s r) (s' : S) :
    Agree hs hr (zs.reset s') r := by
  have h1 := hs.reset s'
  obtain ⟨x, hx, hi⟩ := h.before
  refine ⟨?_, ?_, Or.inl h1.2, ⟨hr.inp r, ?_, ?_⟩, h.output⟩
  · rw [h1.2]; exact codec.nil.1
  · rw [h1.2, h1.1]; exact codec.nil.2
  · rw [hi]; exact (codec.append _ _ hx h.whole).1
  · rw [h1.2, List.append_nil]

/-- Compression of a message. -/
theorem deflate_message {zs : Zlib S} {codec : Codec} (hs : RawDeflates zs codec) {grow : Bytes → Nat → Nat} (hg : ∀ b r, r ≤ grow b r) (s : S) (hm : hs.out s = [] ∨ marker <:+ hs.out s)
    (he : codec.expand (hs.out s) = hs.inp s) (data : Bytes) (hd : data ≠ []) :
    ∃ n,
      (∃ w, ∀ m, n ≤ m → deflateStream zs grow m { strm := s, buf := [] } data = .threw w) ∨
      ∃ w r e, (∀ m, n ≤ m → deflateStream zs grow m { strm := s, buf := [] } data = .done w r e) ∧
        ((∃ w', ∀ m, n ≤ m → deflateFinish zs grow m w = .threw w') ∨
          ∃ w' r' e', (∀ m, n ≤ m → deflateFinish zs grow m w = .done w' r' e') ∧ hs.out w'.strm = hs.out s ++ w'.buf ++ marker ∧ hs.inp w'.strm = hs.inp s ++ data ∧ codec.Whole (hs.out w'.strm) ∧
            codec.expand (hs.out w'.strm) = hs.inp w'.strm) := by
  obtain ⟨n1, o1, h1, hE1⟩ := loop_ends hs.toStream (accept_isRound zs hg (by decide : 0 < 1024) .no) (l := { good := [.ok, .bufError], atEnd := true }) (by decide) { strm := s, buf := [] } data
  have hst : ∀ m, n1 ≤ m → deflateStream zs grow m { strm := s, buf := [] } data = o1 := by
    intro m hm
    rw [← h1 m hm]
    unfold deflateStream
    rw [if_neg]
    simpa using hd
  rcases hE1 with ⟨w, rfl, _⟩ | ⟨w, r, e, rfl, hk, hge, hok, hbf, _⟩
  · exact ⟨n1, Or.inl ⟨w, hst⟩⟩
  · have hr : r = [] := by
      rcases List.mem_cons.mp hge with rfl | hge
      · exact (hok rfl).2
      · exact hbf (by simpa using hge)
    subst hr
    obtain ⟨n2, o2, h2, hE2⟩ := loop_ends hs.toStream (accept_isRound zs hg (by decide : 0 < 16) .sync) (l := { good := [.ok, .bufError], atEnd := false }) (by decide) w []
    refine ⟨max n1 n2, Or.inr ⟨w, [], e, fun m hm' => hst m (by omega), ?_⟩⟩
    · rcases hE2 with ⟨w', rfl, _⟩ | ⟨w', r', e', rfl, hk', hge', hok', hbf', s1, k, i1, c, p, hk0, hcall, hi1⟩
      · left
        exact ⟨w', fun m hm' => by unfold deflateFinish; rw [h2 m (by omega)]⟩
      · right
        have hbe : e' = .bufError := by
          rcases List.mem_cons.mp hge' with rfl | hge'
          · exact absurd (hok' rfl).1 (by simp)
          · simpa using hge'
        subst hbe
        have := hi1 rfl
        subst this
        have hW := hs.whole _ _ _ _ _ hcall hk0
        have hF := hs.flushed _ _ _ _ _ _ hcall hk0 (Or.inl rfl)
        obtain ⟨u, nw, ha, hb, hc, hd'⟩ := hk
        obtain ⟨u', nw', ha', hb', hc', hd''⟩ := hk'
        simp only [List.append_nil] at ha
        subst ha
        have hu' : u' = [] := (List.append_eq_nil_iff.mp ha'.symm).1
        subst hu'
        simp only [List.nil_append, List.append_nil] at hb' hd'
        have hout : hs.out w'.strm = hs.out s ++ w'.buf := by rw [hc', hc, hd'', hd', List.append_assoc]
        have hinp : hs.inp w'.strm = hs.inp s ++ data := by rw [hb', hb]
        have hne : w'.buf ≠ [] := by
          intro h0
          rw [h0, List.append_nil] at hout
          rw [hout, he, hinp] at hF
          exact hd (by simpa using hF)
        have hmk : marker <:+ hs.out s ++ w'.buf := by
          rw [← hout]
          rcases hW.2 with h0 | h0
          · rw [hout] at h0; exact absurd (List.append_eq_nil_iff.mp h0).2 hne
          · exact h0
        obtain ⟨cc, hc1, hc2⟩ := strip_append hm hmk hne
        refine ⟨{ w' with buf := strip w'.buf }, r', .bufError, fun m hm' => by unfold deflateFinish; rw [h2 m (by omega)], ?_, hinp, hW.1, hF⟩
        simp only
        rw [hout, hc2, List.append_assoc, ← hc1]

theorem inflate_safe {zr : Zlib R} {codec : Codec} (hr : RawInflates zr codec) {grow : Bytes → Nat → Nat} (hg : ∀ b r, r ≤ grow b r) {request : Nat} (hq : 0 < request) {w : Wrap R} {i t : Bytes}
    (hw : codec.Whole (hr.inp w.strm ++ i ++ t)) {l : Loop} (hl : l.good = [.ok, .bufError]) {b m : Bytes} (hb : hr.out w.strm = b ++ w.buf) (hx : codec.expand (hr.inp w.strm ++ i ++ t) = b ++ m)
    (hlim : ∀ k, l.limit = some k → m.length ≤ k) : Safe hr.toStream (acceptRound zr grow request .sync) l w i := by
  rintro w1 r1 ⟨u, nw, ha, hb1, hc1, hd1⟩
  rcases hcall : callZlib zr w1.strm .sync r1 (grow w1.buf request) with ⟨s', c, p, e⟩
  have hn : 0 < grow w1.buf request := Nat.lt_of_lt_of_le hq (hg _ _)
  have hsp := callZlib_spec hr.toStream hcall hn
  have hv := hr.valid _ _ _ _ _ _ _ hcall (r1.drop intMax ++ t) (by
    rw [hb1]
    have : hr.inp w.strm ++ u ++ r1.take intMax ++ (r1.drop intMax ++ t) = hr.inp w.strm ++ i ++ t := by
      rw [ha]
      conv => rhs; rw [← List.take_append_drop intMax r1]
      simp only [List.append_assoc]
    rw [this]; exact hw)
  refine ⟨{ strm := s', buf := w1.buf ++ p }, c, e, by simp only [acceptRound, hcall], ?_, ?_⟩
  · rw [hl]
    cases e
    · simp
    · simp
    · exact absurd rfl hv.2
    · exact absurd rfl hv.1
  · cases hk : l.limit with
    | none => rfl
    | some k =>
      have ht := hsp.2.2.1 hv.1
      have h1 : hr.out s' <+: codec.expand (hr.inp s') := hr.correct _ _ _ _ _ _ _ hcall hv.1
      have h2 : codec.expand (hr.inp s') <+: b ++ m := by
        rw [← hx]
        have : hr.inp w.strm ++ i ++ t = hr.inp s' ++ (r1.drop c ++ t) := by
          rw [ht.1, hb1, ha]
          conv => lhs; rw [← List.take_append_drop c r1]
          simp only [List.append_assoc]
        rw [this]; exact codec.mono _ _
      have h3 : b ++ (w1.buf ++ p) <+: b ++ m := by
        have : hr.out s' = b ++ (w1.buf ++ p) := by rw [ht.2, hc1, hb, hd1]; simp only [List.append_assoc]
        rw [← this]; exact h1.trans h2
      have h4 := (List.prefix_append_right_inj b).mp h3
      have h5 := h4.length_le
      have h6 := hlim k hk
      simp only [Option.any_some, decide_eq_false_iff_not, gt_iff_lt, Nat.not_lt]
      exact Nat.le_trans h5 h6

/-- Decompression of a message. -/
theorem inflate_message {zr : Zlib R} {codec : Codec} (hr : RawInflates zr codec) {grow : Bytes → Nat → Nat} (hg : ∀ b r, r ≤ grow b r) (r : R) (ho : hr.out r = codec.expand (hr.inp r))
    (payload m : Bytes) (limit : Nat) (hw : codec.Whole (hr.inp r ++ payload ++ marker)) (hx : codec.expand (hr.inp r ++ payload ++ marker) = hr.out r ++ m) (hlim : m.length ≤ limit) :
    ∃ n, ∃ w rest e, (∀ k, n ≤ k → recvMessage zr grow limit k r true payload = .done w rest e) ∧ w.buf = m ∧ hr.inp w.strm = hr.inp r ++ payload ++ marker ∧
      hr.out w.strm = codec.expand (hr.inp w.strm) := by
  -- the payload
  have hA : ∃ n1 w1 e1, (∀ k, n1 ≤ k → inflateStream zr grow limit k { strm := r, buf := [] } payload = .done w1 [] e1) ∧ Kept hr.toStream { strm := r, buf := [] } payload w1 [] := by
    by_cases hp : payload.length = 0
    · have : payload = [] := List.eq_nil_of_length_eq_zero hp
      subst this
      exact ⟨0, _, .ok, fun k _ => rfl, Kept.refl _ _ _⟩
    · obtain ⟨n1, o1, h1, hE1⟩ := loop_ends hr.toStream (accept_isRound zr hg (by decide : 0 < 1024) .sync) (l := { good := [.ok, .bufError], atEnd := true, limit := some limit }) (by simp)
        { strm := r, buf := [] } payload
      have hsafe := inflate_safe hr hg (by decide : 0 < 1024) (w := { strm := r, buf := [] }) (i := payload) (t := marker) hw (l := { good := [.ok, .bufError], atEnd := true, limit := some limit }) rfl
        (b := hr.out r) (m := m) (by simp) hx (by intro k hk; cases hk; exact hlim)
      rcases hE1 with ⟨w, _, hns⟩ | ⟨w, rr, e, rfl, hk, hge, hok, hbf, _⟩
      · exact absurd hsafe hns
      · have hrr : rr = [] := by
          rcases List.mem_cons.mp hge with rfl | hge
          · exact (hok rfl).2
          · exact hbf (by simpa using hge)
        subst hrr
        exact ⟨n1, w, e, fun k hk' => by unfold inflateStream; rw [if_neg hp]; exact h1 k hk', hk⟩
  obtain ⟨n1, w1, e1, h1, u, nw, ha, hb, hc, hd⟩ := hA
  simp only [List.append_nil, List.nil_append] at ha hd
  subst ha
  -- the end of it
  obtain ⟨n2, o2, h2, hE2⟩ := loop_ends hr.toStream (accept_isRound zr hg (by decide : 0 < 16) .sync) (l := { good := [.ok, .bufError], atEnd := false }) (by decide) w1 marker
  have hw1 : codec.Whole (hr.inp w1.strm ++ marker ++ []) := by rw [List.append_nil, hb]; exact hw
  have hsafe := inflate_safe hr hg (by decide : 0 < 16) (w := w1) (i := marker) (t := []) hw1 (l := { good := [.ok, .bufError], atEnd := false }) rfl (b := hr.out r) (m := m)
    (by rw [hc, hd]) (by rw [List.append_nil, hb]; exact hx) (by intro k hk; cases hk)
  rcases hE2 with ⟨w, _, hns⟩ | ⟨w, rr, e, rfl, ⟨u2, nw2, ha2, hb2, hc2, hd2⟩, hge, hok, hbf, s1, k, i1, c, p, hk0, hcall, hi1⟩
  · exact absurd hsafe hns
  · have hbe : e = .bufError := by
      rcases List.mem_cons.mp hge with rfl | hge
      · exact absurd (hok rfl).1 (by simp)
      · simpa using hge
    subst hbe
    have := hbf rfl
    subst this
    simp only [List.append_nil] at ha2
    subst ha2
    have hcomp : hr.out w.strm = codec.expand (hr.inp w.strm) := hr.complete _ _ _ _ _ _ _ hcall hk0 (Or.inl rfl)
    have hinp : hr.inp w.strm = hr.inp r ++ payload ++ marker := by rw [hb2, hb]
    refine ⟨max n1 n2, w, [], .bufError, fun k hk' => ?_, ?_, hinp, hcomp⟩
    · unfold recvMessage
      rw [if_pos rfl, h1 k (by omega)]
      exact h2 k (by omega)
    · have : hr.out r ++ w.buf = hr.out r ++ m := by
        rw [← hx, ← hinp, ← hcomp, hc2, hc, hd2, hd, List.append_assoc]
      exact List.append_cancel_left this

/-- Messages are received as they were sent. -/
theorem exchange_spec {zs : Zlib S} {zr : Zlib R} {codec : Codec} (hs : RawDeflates zs codec) (hr : RawInflates zr codec) {grow : Bytes → Nat → Nat} (hg : ∀ b r, r ≤ grow b r) (noCtx : Bool) (limit : Nat) :
    ∀ (ms : List Bytes) (s : S) (r : R), Agree hs hr s r → (∀ m ∈ ms, m.length ≤ limit) →
      ∃ n, ∀ k, n ≤ k → (exchange zs zr grow noCtx limit k s r ms).map (·.map (·.1)) = some ms
  | [], _, _, _, _ => ⟨0, fun _ _ => rfl⟩
  | m :: ms, s, r, h, hl => by
    -- messages that are not compressed
    have plain : ∀ s', Agree hs hr s' r → ∃ n, ∀ k, n ≤ k →
        ((exchange zs zr grow noCtx limit k s' r ms).map ((m, false) :: ·)).map (·.map (·.1)) = some (m :: ms) := by
      intro s' h'
      obtain ⟨n, hn⟩ := exchange_spec hs hr hg noCtx limit ms s' r h' (fun x hx => hl x (by simp [hx]))
      refine ⟨n, fun k hk => ?_⟩
      have := hn k hk
      cases he : exchange zs zr grow noCtx limit k s' r ms with
      | none => rw [he] at this; cases this
      | some l => rw [he] at this; simp only [Option.map_some, Option.some.injEq, List.map_cons] at this ⊢; rw [this]
    by_cases ht : m.length ≥ (if noCtx then 1024 else 64)
    · have hm : m ≠ [] := by intro h0; subst h0; cases noCtx <;> simp at ht
      -- the state before compression
      have hag : Agree hs hr (if noCtx then zs.reset s else s) r := by
        split
        · exact h.reset s
        · exact h
      revert hag
      generalize hs0 : (if noCtx then zs.reset s else s) = s0
      intro hag
      obtain ⟨n1, h1⟩ := deflate_message hs hg s0 hag.marked hag.expand m hm
      have failed : ∀ s' n2, (∀ k, n2 ≤ k → sendMessage zs grow noCtx k s m = some { strm := zs.reset s', payload := m, compressed := false }) →
          ∃ n, ∀ k, n ≤ k → (exchange zs zr grow noCtx limit k s r (m :: ms)).map (·.map (·.1)) = some (m :: ms) := by
        intro s' n2 h2
        obtain ⟨n, hn⟩ := plain (zs.reset s') (h.reset s')
        refine ⟨max n n2, fun k hk => ?_⟩
        rw [← hn k (by omega)]
        simp only [exchange, h2 k (by omega), recvMessage, Bool.false_eq_true, if_false]
      rcases h1 with ⟨w, hw⟩ | ⟨w, rr, e, hw, ⟨w', hw'⟩ | ⟨w', r', e', hw', ho, hi, hW, hX⟩⟩
      · refine failed w.strm n1 fun k hk => ?_
        unfold sendMessage
        simp only
        rw [if_pos ht, hs0, hw k hk]
      · refine failed w'.strm n1 fun k hk => ?_
        unfold sendMessage
        simp only
        rw [if_pos ht, hs0, hw k hk]
        simp only
        rw [hw' k hk]
      · have hsend : ∀ k, n1 ≤ k → sendMessage zs grow noCtx k s m = some { strm := w'.strm, payload := w'.buf, compressed := true } := by
          intro k hk
          unfold sendMessage
          simp only
          rw [if_pos ht, hs0, hw k hk]
          simp only
          rw [hw' k hk]
        obtain ⟨x, hx, hxi⟩ := hag.before
        have hall : hr.inp r ++ w'.buf ++ marker = x ++ hs.out w'.strm := by rw [hxi, ho]; simp only [List.append_assoc]
        have happ := codec.append _ _ hx hW
        have happ0 := codec.append _ _ hx hag.whole
        have hexp : codec.expand (hr.inp r ++ w'.buf ++ marker) = hr.out r ++ m := by
          rw [hall, happ.2, hX, hi, hag.output, hxi, happ0.2, hag.expand, List.append_assoc]
        obtain ⟨n2, w2, rest, e2, hrec, hbuf, hinp, hout⟩ := inflate_message hr hg r hag.output w'.buf m limit (by rw [hall]; exact happ.1) hexp (hl m (by simp))
        have hag' : Agree hs hr w'.strm w2.strm := by
          refine ⟨hW, hX, Or.inr ?_, ⟨x, hx, by rw [hinp, hall]⟩, hout⟩
          rw [ho]; exact List.suffix_append _ _
        obtain ⟨n3, h3⟩ := exchange_spec hs hr hg noCtx limit ms w'.strm w2.strm hag' (fun x hx => hl x (by simp [hx]))
        refine ⟨max n1 (max n2 n3), fun k hk => ?_⟩
        have hk3 := h3 k (by omega)
        simp only [exchange, hsend k (by omega)]
        rw [hrec k (by omega)]
        simp only
        cases he : exchange zs zr grow noCtx limit k w'.strm w2.strm ms with
        | none => rw [he] at hk3; cases hk3
        | some l => rw [he] at hk3; simp only [Option.map_some, Option.some.injEq, List.map_cons] at hk3 ⊢; rw [hk3, hbuf]
    · obtain ⟨n, hn⟩ := plain s h
      refine ⟨n, fun k hk => ?_⟩
      rw [← hn k hk]
      simp only [exchange, sendMessage, if_neg ht, recvMessage, Bool.false_eq_true, if_false]

end Verif.Zlib
