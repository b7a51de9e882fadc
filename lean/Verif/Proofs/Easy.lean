import Verif.Spec.Easy
/-!
# Proofs about sessions
-/
namespace Verif.Easy

variable {M : Type} [DecidableEq M]

def Hist : List (Ev M) → Prop
  | [] => True
  | e :: t => Lawful t e ∧ Hist t

theorem Hist.at : ∀ {post pre : List (Ev M)} {e : Ev M}, Hist (post ++ e :: pre) → Lawful pre e
  | [], _, _, h => h.1
  | _ :: _, _, _, h => Hist.at h.2

theorem setFib_get (s : Sys M) (f : Nat) (st : FSt M) (g : Nat) : (setFib s f st)[g]? = if f = g then (s.fibs[g]?).map (fun x => { x with st := st }) else s.fibs[g]? := by
  unfold setFib
  rw [List.getElem?_modify]
  split
  · rfl
  · simp

/-- There is a fiber in a callback. -/
theorem any_calling {l : List (Fiber M)} : l.any (·.st.isCalling) = true ↔ ∃ (f : Nat) (x : Fiber M) (i : Nat) (ev : Event M), l[f]? = some x ∧ x.st = .calling i ev := by
  rw [List.any_eq_true]
  constructor
  · rintro ⟨x, hx, hc⟩
    obtain ⟨f, hf⟩ := List.mem_iff_getElem?.mp hx
    cases hst : x.st with
    | calling i ev => exact ⟨f, x, i, ev, hf, hst⟩
    | ready => rw [hst] at hc; cases hc
    | done => rw [hst] at hc; cases hc
  · rintro ⟨f, x, i, ev, hf, hst⟩
    exact ⟨x, List.mem_iff_getElem?.mpr ⟨f, hf⟩, by rw [hst]; rfl⟩

structure Inv (s : Sys M) : Prop where
  alv : alive s = false → ∀ a, s.table a = none
  tab : ∀ a q, s.table a = some q → s.mem a = some q.sid
  mem : ∀ a x, s.mem a = some x → s.addr x = a ∧ x < s.count
  call : ∀ (f : Nat) (x : Fiber M) (i : Nat) (ev : Event M), s.fibs[f]? = some x → x.st = .calling i ev → s.mem x.addr = some i
  uniq : ∀ (f : Nat) (x : Fiber M) (g : Nat) (y : Fiber M), s.fibs[f]? = some x → s.fibs[g]? = some y → x.addr = y.addr → x.st ≠ .done → y.st ≠ .done → f = g
  act : ∀ a q, s.table a = some q → (q.active = true ↔ ∃ (f : Nat) (x : Fiber M), s.fibs[f]? = some x ∧ x.addr = a ∧ x.st ≠ .done)
  pend : ∀ a q, s.table a = some q → q.events ≠ [] → q.active = true
  seq : ∀ a q, s.table a = some q → arrivals s.trace q.sid = handled s.trace q.sid ++ q.events ∧ ¬ Closed s.trace q.sid
  pre : ∀ i, handled s.trace i <+: arrivals s.trace i ∧ ∀ e ∈ (handled s.trace i).dropLast, e.ty ≠ .close
  fresh : ∀ i, s.count ≤ i → arrivals s.trace i = [] ∧ handled s.trace i = [] ∧ running s.trace i = none ∧ consumed s.trace i = []
  run : ∀ i f, running s.trace i = some f ↔ ∃ (y : Fiber M) (ev : Event M), s.fibs[f]? = some y ∧ y.st = .calling i ev
  str : ∀ a q, s.table a = some q → consumed s.trace q.sid ++ q.stream = received s.trace q.sid
  stp : s.stopped = true ↔ .stopped ∈ s.trace
  compl : ∀ i, i < s.count → (∃ q, s.table (s.addr i) = some q ∧ q.sid = i) ∨ Closed s.trace i ∨ Lost s.trace i
  hist : Hist s.trace

theorem inv_init (c : Bool) : Inv ({ careful := c } : Sys M) := by
  constructor <;> simp [alive, arrivals, handled, running, consumed, Hist]

theorem inv_accept {s s' : Sys M} {a : Nat} (hi : Inv s) (hc : s.careful = true) (hs : step s (.accept a) = some s') : Inv s' := by
  simp only [step, hc, true_and] at hs
  split at hs
  · cases hs
  rename_i h1
  split at hs
  · cases hs
  rename_i h2
  simp only [Option.some.injEq] at hs
  subst hs
  have ha : alive s = true := by cases h : alive s <;> simp_all
  have hm : s.mem a = none := by cases h : s.mem a <;> simp_all
  have ht : s.table a = none := by cases h : s.table a <;> simp_all
  have hno : ∀ (f : Nat) (x : Fiber M), s.fibs[f]? = some x → x.addr = a → x.st = .done := by
    intro f x hf hx
    refine Classical.byContradiction fun hn => h2 ?_
    rw [List.any_eq_true]
    exact ⟨x, List.mem_iff_getElem?.mpr ⟨f, hf⟩, by simp [hx, hn]⟩
  have hfr := hi.fresh s.count (Nat.le_refl _)
  have hrv : received s.trace s.count = [] := by simp [received, hfr.2.1]
  have hlost : ∀ i, Lost s.trace i → Lost (.accepted s.count :: s.trace) i := by
    rintro i (h | ⟨e, h⟩)
    · exact Or.inl (.tail _ h)
    · exact Or.inr ⟨e, .tail _ h⟩
  constructor
  case alv => intro h; exact absurd (show alive s = false from h) (by simp [ha])
  case tab =>
    intro b q h
    simp only [setTable] at h ⊢
    split at h
    · cases h; rename_i hb; subst hb; simp
    · rename_i hb; simp only [hb, if_false]; exact hi.tab b q h
  case mem =>
    intro b x h
    simp only at h ⊢
    split at h
    · cases h; rename_i hb; simp [hb]
    · have := hi.mem b x h
      have hne : x ≠ s.count := by omega
      simp only [hne, if_false]
      exact ⟨this.1, by omega⟩
  case call =>
    intro f x i ev hf hx
    have := hi.call f x i ev hf hx
    simp only
    by_cases hb : x.addr = a
    · rw [hb, hm] at this; cases this
    · simp [hb, this]
  case uniq => exact hi.uniq
  case act =>
    intro b q h
    simp only [setTable] at h
    split at h
    · cases h; rename_i hb; subst hb
      simp only [Bool.false_eq_true, false_iff]
      rintro ⟨f, x, hf, hx, hd⟩
      exact hd (hno f x hf hx)
    · exact hi.act b q h
  case pend =>
    intro b q h hq
    simp only [setTable] at h
    split at h
    · cases h; simp at hq
    · exact hi.pend b q h hq
  case seq =>
    intro b q h
    simp only [setTable] at h
    split at h
    · cases h
      show arrivals s.trace _ = handled s.trace _ ++ _ ∧ ¬ ∃ e ∈ handled s.trace _, _
      simp [hfr]
    · exact hi.seq b q h
  case pre => exact hi.pre
  case fresh => intro i h; exact hi.fresh i (Nat.le_of_succ_le h)
  case run => exact hi.run
  case str =>
    intro b q h
    simp only [setTable] at h
    split at h
    · cases h
      show consumed s.trace _ ++ _ = received s.trace _
      simp [hfr, hrv]
    · exact hi.str b q h
  case stp => simp only [hi.stp]; simp
  case compl =>
    intro i h
    simp only [setTable] at h ⊢
    by_cases he : i = s.count
    · subst he; exact Or.inl ⟨_, by simp only [if_true]; rfl, rfl⟩
    · simp only [he, if_false]
      rcases hi.compl i (by omega) with ⟨q, h1, h2⟩ | h | h
      · refine Or.inl ⟨q, ?_, h2⟩
        rw [if_neg]
        · exact h1
        · intro hb; rw [hb, ht] at h1; cases h1
      · exact Or.inr (Or.inl h)
      · exact Or.inr (Or.inr (hlost i h))
  case hist => exact ⟨trivial, hi.hist⟩

theorem Lost.mono {t : List (Ev M)} {e : Ev M} {i : Nat} (h : Lost t i) : Lost (e :: t) i := by
  rcases h with h | ⟨x, h⟩
  · exact Or.inl (.tail _ h)
  · exact Or.inr ⟨x, .tail _ h⟩

/-- A fiber is launched. -/
theorem Inv.launch {s : Sys M} (hi : Inv s) {a : Nat} {q : Queue M} (ht : s.table a = some q) (hq : q.active = false) :
    Inv { s with fibs := s.fibs ++ [{ addr := a }], table := setTable s a (some { q with active := true }) } := by
  have hal : ∀ t, alive { s with fibs := s.fibs ++ [{ addr := a }], table := t } = alive s := by intro t; simp [alive, FSt.isCalling]
  have hget : ∀ (f : Nat) (x : Fiber M), (s.fibs ++ [{ addr := a }])[f]? = some x → s.fibs[f]? = some x ∨ (f = s.fibs.length ∧ x = { addr := a }) := by
    intro f x h
    rw [List.getElem?_append] at h
    split at h
    · exact Or.inl h
    · right
      rename_i hlt
      have : f - s.fibs.length = 0 := by
        refine Classical.byContradiction fun hn => ?_
        rw [List.getElem?_eq_none (by simp; omega)] at h
        cases h
      rw [this] at h
      simp at h
      exact ⟨by omega, h.symm⟩
  have hget' : ∀ (f : Nat) (x : Fiber M), s.fibs[f]? = some x → (s.fibs ++ [{ addr := a }])[f]? = some x := by
    intro f x h
    rw [List.getElem?_append_left]
    · exact h
    · exact (List.getElem?_eq_some_iff.mp h).1
  have hlast : (s.fibs ++ [({ addr := a } : Fiber M)])[s.fibs.length]? = some { addr := a } := by simp
  have hno : ∀ (f : Nat) (x : Fiber M), s.fibs[f]? = some x → x.addr = a → x.st = .done := by
    intro f x hf hx
    refine Classical.byContradiction fun hn => ?_
    have := (hi.act a q ht).mpr ⟨f, x, hf, hx, hn⟩
    rw [hq] at this
    cases this
  have hne : ∀ b, b ≠ a → setTable s a (some { q with active := true }) b = s.table b := by intro b hb; simp [setTable, hb]
  have heq : setTable s a (some { q with active := true }) a = some { q with active := true } := by simp [setTable]
  constructor
  case alv =>
    intro h b
    have h' := (hal _).symm.trans h
    have := hi.alv h' a
    rw [ht] at this
    cases this
  case tab =>
    intro b p h
    by_cases hb : b = a
    · subst hb; replace h := heq.symm.trans h; cases h; exact hi.tab b q ht
    · replace h := (hne b hb).symm.trans h; exact hi.tab b p h
  case mem => exact hi.mem
  case call =>
    intro f x i ev hf hx
    rcases hget f x hf with hf | ⟨_, rfl⟩
    · exact hi.call f x i ev hf hx
    · cases hx
  case uniq =>
    intro f x g y hf hg hxy hx hy
    rcases hget f x hf with hf | ⟨rfl, rfl⟩ <;> rcases hget g y hg with hg | ⟨rfl, rfl⟩
    · exact hi.uniq f x g y hf hg hxy hx hy
    · exact absurd (hno f x hf hxy) hx
    · exact absurd (hno g y hg hxy.symm) hy
    · rfl
  case act =>
    intro b p h
    by_cases hb : b = a
    · subst hb; replace h := heq.symm.trans h; cases h
      simp only [true_iff]
      exact ⟨_, _, hlast, rfl, by simp⟩
    · replace h := (hne b hb).symm.trans h
      rw [hi.act b p h]
      constructor
      · rintro ⟨f, x, hf, hx, hd⟩; exact ⟨f, x, hget' f x hf, hx, hd⟩
      · rintro ⟨f, x, hf, hx, hd⟩
        rcases hget f x hf with hf | ⟨rfl, rfl⟩
        · exact ⟨f, x, hf, hx, hd⟩
        · exact absurd hx.symm hb
  case pend =>
    intro b p h hp
    by_cases hb : b = a
    · subst hb; replace h := heq.symm.trans h; cases h; rfl
    · replace h := (hne b hb).symm.trans h; exact hi.pend b p h hp
  case seq =>
    intro b p h
    by_cases hb : b = a
    · subst hb; replace h := heq.symm.trans h; cases h; exact hi.seq b q ht
    · replace h := (hne b hb).symm.trans h; exact hi.seq b p h
  case pre => exact hi.pre
  case fresh => exact hi.fresh
  case run =>
    intro i f
    rw [show running _ i = some f ↔ _ from hi.run i f]
    constructor
    · rintro ⟨y, ev, hf, hy⟩; exact ⟨y, ev, hget' f y hf, hy⟩
    · rintro ⟨y, ev, hf, hy⟩
      rcases hget f y hf with hf | ⟨rfl, rfl⟩
      · exact ⟨y, ev, hf, hy⟩
      · cases hy
  case str =>
    intro b p h
    by_cases hb : b = a
    · subst hb; replace h := heq.symm.trans h; cases h; exact hi.str b q ht
    · replace h := (hne b hb).symm.trans h; exact hi.str b p h
  case stp => exact hi.stp
  case compl =>
    intro i h
    rcases hi.compl i h with ⟨p, h1, h2⟩ | h
    · left
      by_cases hb : s.addr i = a
      · rw [hb, ht] at h1; cases h1
        exact ⟨{ q with active := true }, by show setTable s a _ (s.addr i) = _; rw [hb]; exact heq, h2⟩
      · exact ⟨p, (hne _ hb).trans h1, h2⟩
    · exact Or.inr h
  case hist => exact hi.hist

/-- An event is put into a queue. -/
theorem Inv.append {s : Sys M} (hi : Inv s) {a : Nat} {q : Queue M} {ev : Event M} (ht : s.table a = some q) (hq : q.active = true) :
    Inv { s with table := setTable s a (some { q with events := q.events ++ [ev] }), trace := .arrived q.sid ev :: s.trace } := by
  have hne : ∀ b, b ≠ a → setTable s a (some { q with events := q.events ++ [ev] }) b = s.table b := by intro b hb; simp [setTable, hb]
  have heq : setTable s a (some { q with events := q.events ++ [ev] }) a = some { q with events := q.events ++ [ev] } := by simp [setTable]
  have hsid : ∀ b p, b ≠ a → s.table b = some p → q.sid ≠ p.sid := by
    intro b p hb hp he
    have h1 := (hi.mem _ _ (hi.tab b p hp)).1
    have h2 := (hi.mem _ _ (hi.tab a q ht)).1
    rw [he, h1] at h2
    exact hb h2
  have hlt : q.sid < s.count := (hi.mem _ _ (hi.tab a q ht)).2
  have harr : ∀ i, arrivals (.arrived q.sid ev :: s.trace) i = if q.sid = i then arrivals s.trace i ++ [ev] else arrivals s.trace i := fun i => rfl
  constructor
  case alv =>
    intro h b
    have := hi.alv h a
    rw [ht] at this
    cases this
  case tab =>
    intro b p h
    by_cases hb : b = a
    · subst hb; replace h := heq.symm.trans h; cases h; exact hi.tab b q ht
    · replace h := (hne b hb).symm.trans h; exact hi.tab b p h
  case mem => exact hi.mem
  case call => exact hi.call
  case uniq => exact hi.uniq
  case act =>
    intro b p h
    by_cases hb : b = a
    · subst hb; replace h := heq.symm.trans h; cases h; exact hi.act b q ht
    · replace h := (hne b hb).symm.trans h; exact hi.act b p h
  case pend =>
    intro b p h hp
    by_cases hb : b = a
    · subst hb; replace h := heq.symm.trans h; cases h; exact hq
    · replace h := (hne b hb).symm.trans h; exact hi.pend b p h hp
  case seq =>
    intro b p h
    show arrivals (_ :: _) _ = _ ∧ _
    rw [harr]
    by_cases hb : b = a
    · subst hb; replace h := heq.symm.trans h; cases h
      have := hi.seq b q ht
      simp only [if_true]
      refine ⟨?_, this.2⟩
      rw [this.1]
      show _ = handled s.trace _ ++ _
      simp
    · replace h := (hne b hb).symm.trans h
      rw [if_neg (hsid b p hb h)]
      exact hi.seq b p h
  case pre =>
    intro i
    refine ⟨?_, (hi.pre i).2⟩
    show handled s.trace i <+: arrivals (_ :: _) i
    rw [harr]
    split
    · exact (hi.pre i).1.trans (List.prefix_append _ _)
    · exact (hi.pre i).1
  case fresh =>
    intro i h
    have := hi.fresh i h
    refine ⟨?_, this.2⟩
    show arrivals (_ :: _) i = _
    rw [harr, if_neg (by simp only at h; omega)]
    exact this.1
  case run => exact hi.run
  case str =>
    intro b p h
    by_cases hb : b = a
    · subst hb; replace h := heq.symm.trans h; cases h; exact hi.str b q ht
    · replace h := (hne b hb).symm.trans h; exact hi.str b p h
  case stp => simp only [hi.stp]; simp
  case compl =>
    intro i h
    rcases hi.compl i h with ⟨p, h1, h2⟩ | h | h
    · left
      by_cases hb : s.addr i = a
      · rw [hb, ht] at h1; cases h1
        exact ⟨{ q with events := q.events ++ [ev] }, by show setTable s a _ (s.addr i) = _; rw [hb]; exact heq, h2⟩
      · exact ⟨p, (hne _ hb).trans h1, h2⟩
    · exact Or.inr (Or.inl h)
    · exact Or.inr (Or.inr h.mono)
  case hist => exact ⟨trivial, hi.hist⟩

/-- A session is removed because of an exception. -/
theorem Inv.fail {s : Sys M} (hi : Inv s) {a : Nat} {q : Queue M} {ev : Event M} (ht : s.table a = some q) :
    Inv { s with table := setTable s a none, trace := .failed q.sid ev :: s.trace } := by
  have hsome : ∀ b p, setTable s a none b = some p → s.table b = some p := by intro b p h; simp only [setTable] at h; split at h; cases h; exact h
  constructor
  case alv =>
    intro h b
    have := hi.alv h a
    rw [ht] at this
    cases this
  case tab => intro b p h; exact hi.tab b p (hsome b p h)
  case mem => exact hi.mem
  case call => exact hi.call
  case uniq => exact hi.uniq
  case act => intro b p h; exact hi.act b p (hsome b p h)
  case pend => intro b p h; exact hi.pend b p (hsome b p h)
  case seq => intro b p h; exact hi.seq b p (hsome b p h)
  case pre => exact hi.pre
  case fresh => exact hi.fresh
  case run => exact hi.run
  case str => intro b p h; exact hi.str b p (hsome b p h)
  case stp => simp only [hi.stp]; simp
  case compl =>
    intro i h
    by_cases he : i = q.sid
    · exact Or.inr (Or.inr (Or.inr ⟨ev, by rw [he]; exact .head _⟩))
    · rcases hi.compl i h with ⟨p, h1, h2⟩ | h | h
      · refine Or.inl ⟨p, ?_, h2⟩
        simp only [setTable]
        rw [if_neg]
        · exact h1
        · intro hb; rw [hb, ht] at h1; cases h1; exact he h2.symm
      · exact Or.inr (Or.inl h)
      · exact Or.inr (Or.inr h.mono)
  case hist => exact ⟨trivial, hi.hist⟩

/-- Something is ignored. -/
theorem Inv.ignore {s : Sys M} (hi : Inv s) {i : Nat} {ev : Event M} (hc : Closed s.trace i ∨ Lost s.trace i) : Inv { s with trace := .ignored i ev :: s.trace } := by
  constructor
  case alv => exact hi.alv
  case tab => exact hi.tab
  case mem => exact hi.mem
  case call => exact hi.call
  case uniq => exact hi.uniq
  case act => exact hi.act
  case pend => exact hi.pend
  case seq => exact hi.seq
  case pre => exact hi.pre
  case fresh => exact hi.fresh
  case run => exact hi.run
  case str => exact hi.str
  case stp => simp only [hi.stp]; simp
  case compl =>
    intro i h
    rcases hi.compl i h with h | h | h
    · exact Or.inl h
    · exact Or.inr (Or.inl h)
    · exact Or.inr (Or.inr h.mono)
  case hist => exact ⟨hc, hi.hist⟩

theorem setTable_twice (s : Sys M) (a : Nat) (p q : Option (Queue M)) (f : List (Fiber M)) : setTable { s with fibs := f, table := setTable s a p } a q = setTable s a q := by
  funext b; simp only [setTable]; split <;> rfl

theorem inv_push {s : Sys M} (hi : Inv s) {i : Nat} {ev : Event M} {fail : Fail} (hm : s.mem (s.addr i) = some i) (hlt : i < s.count) : Inv (push s i ev fail) := by
  have hnone : s.table (s.addr i) = none → Closed s.trace i ∨ Lost s.trace i := by
    intro h
    rcases hi.compl i hlt with ⟨q, h1, _⟩ | h' | h'
    · rw [h] at h1; cases h1
    · exact Or.inl h'
    · exact Or.inr h'
  unfold push
  split
  · rename_i ha
    exact hi.ignore (hnone (hi.alv (by simpa using ha) _))
  · split
    · rename_i ht
      exact hi.ignore (hnone ht)
    · rename_i q ht
      have hsid : q.sid = i := by
        have := hi.tab _ _ ht
        rw [hm] at this
        exact (Option.some.inj this).symm
      subst hsid
      cases hq : q.active
      · have h1 := hi.launch ht hq
        have heq : setTable s (s.addr q.sid) (some { q with active := true }) (s.addr q.sid) = some { q with active := true } := by simp [setTable]
        cases fail
        · have := h1.append (ev := ev) heq rfl
          simpa [setTable_twice] using this
        · exact hi.fail ht
        · have := h1.fail (ev := ev) heq
          simpa [setTable_twice] using this
      · cases fail
        · have := hi.append (ev := ev) ht hq
          simpa [hq] using this
        · exact hi.fail ht
        · exact hi.fail ht

theorem inv_free {s s' : Sys M} {i : Nat} (hi : Inv s) (hs : step s (.free i) = some s') : Inv s' := by
  simp only [step] at hs
  split at hs
  case isFalse => cases hs
  rename_i h
  obtain ⟨hm, hlt, ht, hf⟩ := h
  simp only [Option.some.injEq] at hs
  subst hs
  have hother : ∀ b x, s.mem b = some x → x ≠ i → b ≠ s.addr i := by
    intro b x hb hx he
    rw [he, hm] at hb
    exact hx (Option.some.inj hb).symm
  constructor
  case alv => exact hi.alv
  case tab =>
    intro b q h
    have h1 := hi.tab b q h
    have : b ≠ s.addr i := by
      intro he
      rw [← he] at ht
      replace h : s.table b = some q := h
      rw [h] at ht
      simp at ht
      rw [he, hm] at h1
      exact ht (Option.some.inj h1).symm
    simp only [this, if_false]
    exact h1
  case mem =>
    intro b x h
    simp only at h
    split at h
    · cases h
    · exact hi.mem b x h
  case call =>
    intro f x j ev hfx hx
    have h1 := hi.call f x j ev hfx hx
    have hji : j ≠ i := by
      have := List.all_eq_true.mp hf x (List.mem_iff_getElem?.mpr ⟨f, hfx⟩)
      rw [hx] at this
      simpa using this
    simp only [hother _ _ h1 hji, if_false]
    exact h1
  case uniq => exact hi.uniq
  case act => exact hi.act
  case pend => exact hi.pend
  case seq => exact hi.seq
  case pre => exact hi.pre
  case fresh => exact hi.fresh
  case run => exact hi.run
  case str => exact hi.str
  case stp => exact hi.stp
  case compl => exact hi.compl
  case hist => exact hi.hist

theorem inv_stop {s : Sys M} (hi : Inv s) :
    Inv { s with stopped := true, table := if s.fibs.any (·.st.isCalling) then s.table else fun _ => none, trace := .stopped :: s.trace } := by
  have hsome : ∀ b p, (if s.fibs.any (·.st.isCalling) then s.table else fun _ => none) b = some p → s.table b = some p := by
    intro b p h
    split at h
    · exact h
    · cases h
  constructor
  case alv =>
    intro h b
    simp only [alive, Bool.not_true, Bool.false_or] at h
    simp [h]
  case tab => intro b p h; exact hi.tab b p (hsome b p h)
  case mem => exact hi.mem
  case call => exact hi.call
  case uniq => exact hi.uniq
  case act => intro b p h; exact hi.act b p (hsome b p h)
  case pend => intro b p h; exact hi.pend b p (hsome b p h)
  case seq => intro b p h; exact hi.seq b p (hsome b p h)
  case pre => exact hi.pre
  case fresh => exact hi.fresh
  case run => exact hi.run
  case str => intro b p h; exact hi.str b p (hsome b p h)
  case stp => simp
  case compl => intro i _; exact Or.inr (Or.inr (Or.inl (.head _)))
  case hist => exact ⟨trivial, hi.hist⟩

/-- A fiber returns, and its queue is marked if there is one. -/
theorem Inv.quit {s : Sys M} (hi : Inv s) {f : Nat} {x : Fiber M} (hf : s.fibs[f]? = some x) (hx : x.st = .ready) {t : Nat → Option (Queue M)}
    (ht : (s.table x.addr = none ∧ t = s.table) ∨ ∃ q, s.table x.addr = some q ∧ q.events = [] ∧ t = setTable s x.addr (some { q with active := false })) :
    Inv { s with fibs := setFib s f .done, cur := none, table := t } := by
  have hget : ∀ (g : Nat) (y : Fiber M), (setFib s f .done)[g]? = some y → (g = f ∧ y = { x with st := .done }) ∨ (g ≠ f ∧ s.fibs[g]? = some y) := by
    intro g y h
    rw [setFib_get] at h
    split at h
    · rename_i he; subst he; rw [hf] at h; simp at h; exact Or.inl ⟨rfl, h.symm⟩
    · rename_i he; exact Or.inr ⟨fun h => he h.symm, h⟩
  have hget' : ∀ (g : Nat) (y : Fiber M), s.fibs[g]? = some y → g ≠ f → (setFib s f .done)[g]? = some y := by
    intro g y h hne
    rw [setFib_get, if_neg (fun h => hne h.symm)]
    exact h
  have hcall : ∀ (g : Nat) (y : Fiber M) (i : Nat) (ev : Event M), ((setFib s f .done)[g]? = some y ∧ y.st = .calling i ev) ↔ (s.fibs[g]? = some y ∧ y.st = .calling i ev) := by
    intro g y i ev
    constructor
    · rintro ⟨h1, h2⟩
      rcases hget g y h1 with ⟨_, rfl⟩ | ⟨_, h⟩
      · cases h2
      · exact ⟨h, h2⟩
    · rintro ⟨h1, h2⟩
      refine ⟨hget' g y h1 ?_, h2⟩
      intro he
      rw [he, hf] at h1
      cases h1
      rw [hx] at h2
      cases h2
  have hal : alive { s with fibs := setFib s f .done, cur := none, table := t } = alive s := by
    unfold alive
    simp only
    congr 1
    rw [Bool.eq_iff_iff, any_calling, any_calling]
    constructor
    · rintro ⟨g, y, i, ev, h⟩; exact ⟨g, y, i, ev, (hcall g y i ev).mp h⟩
    · rintro ⟨g, y, i, ev, h⟩; exact ⟨g, y, i, ev, (hcall g y i ev).mpr h⟩
  have hsome : ∀ b p, t b = some p → ∃ q, s.table b = some q ∧ q.sid = p.sid ∧ q.events = p.events ∧ q.stream = p.stream ∧
      ((b ≠ x.addr ∧ q.active = p.active) ∨ (b = x.addr ∧ p.active = false ∧ p.events = [])) := by
    intro b p h
    rcases ht with ⟨h1, rfl⟩ | ⟨q, h1, h2, rfl⟩
    · exact ⟨p, h, rfl, rfl, rfl, Or.inl ⟨fun hb => by simp [hb, h1] at h, rfl⟩⟩
    · simp only [setTable] at h
      split at h
      · rename_i hb; subst hb; cases h
        exact ⟨q, h1, rfl, rfl, rfl, Or.inr ⟨rfl, rfl, h2⟩⟩
      · rename_i hb
        exact ⟨p, h, rfl, rfl, rfl, Or.inl ⟨hb, rfl⟩⟩
  have hsome' : ∀ b q, s.table b = some q → ∃ p, t b = some p ∧ p.sid = q.sid := by
    intro b q h
    rcases ht with ⟨h1, rfl⟩ | ⟨q', h1, h2, rfl⟩
    · exact ⟨q, h, rfl⟩
    · simp only [setTable]
      split
      · rename_i hb; rw [hb, h1] at h; cases h; exact ⟨_, rfl, rfl⟩
      · exact ⟨q, h, rfl⟩
  constructor
  case alv =>
    intro h b
    rw [hal] at h
    cases hb : t b with
    | none => exact hb
    | some p => obtain ⟨q, hq, _⟩ := hsome b p hb; rw [hi.alv h b] at hq; cases hq
  case tab => intro b p h; obtain ⟨q, h1, h2, _⟩ := hsome b p h; rw [← h2]; exact hi.tab b q h1
  case mem => exact hi.mem
  case call => intro g y i ev h1 h2; obtain ⟨h1, h2⟩ := (hcall g y i ev).mp ⟨h1, h2⟩; exact hi.call g y i ev h1 h2
  case uniq =>
    intro g y g' y' h1 h2 ha hy hy'
    rcases hget g y h1 with ⟨_, rfl⟩ | ⟨_, h1⟩
    · exact absurd rfl hy
    · rcases hget g' y' h2 with ⟨_, rfl⟩ | ⟨_, h2⟩
      · exact absurd rfl hy'
      · exact hi.uniq g y g' y' h1 h2 ha hy hy'
  case act =>
    intro b p h
    obtain ⟨q, h1, h2, h3, h4, h5⟩ := hsome b p h
    rcases h5 with ⟨hb, h5⟩ | ⟨hb, h5, h6⟩
    · rw [← h5, hi.act b q h1]
      constructor
      · rintro ⟨g, y, hg, hy, hd⟩
        refine ⟨g, y, hget' g y hg ?_, hy, hd⟩
        intro he; rw [he, hf] at hg; cases hg; exact hb hy.symm
      · rintro ⟨g, y, hg, hy, hd⟩
        rcases hget g y hg with ⟨_, rfl⟩ | ⟨_, hg⟩
        · exact absurd rfl hd
        · exact ⟨g, y, hg, hy, hd⟩
    · rw [h5]
      simp only [Bool.false_eq_true, false_iff]
      rintro ⟨g, y, hg, hy, hd⟩
      rcases hget g y hg with ⟨_, rfl⟩ | ⟨hne, hg⟩
      · exact hd rfl
      · exact hne (hi.uniq g y f x hg hf (hy.trans hb) hd (by rw [hx]; simp))
  case pend =>
    intro b p h hp
    obtain ⟨q, h1, h2, h3, h4, h5⟩ := hsome b p h
    rcases h5 with ⟨hb, h5⟩ | ⟨hb, h5, h6⟩
    · rw [← h5]; exact hi.pend b q h1 (by rw [h3]; exact hp)
    · exact absurd h6 hp
  case seq => intro b p h; obtain ⟨q, h1, h2, h3, _⟩ := hsome b p h; rw [← h2, ← h3]; exact hi.seq b q h1
  case pre => exact hi.pre
  case fresh => exact hi.fresh
  case run =>
    intro i g
    rw [show running _ i = some g ↔ _ from hi.run i g]
    constructor
    · rintro ⟨y, ev, h⟩; exact ⟨y, ev, (hcall g y i ev).mpr h⟩
    · rintro ⟨y, ev, h⟩; exact ⟨y, ev, (hcall g y i ev).mp h⟩
  case str => intro b p h; obtain ⟨q, h1, h2, h3, h4, _⟩ := hsome b p h; rw [← h2, ← h4]; exact hi.str b q h1
  case stp => exact hi.stp
  case compl =>
    intro i h
    rcases hi.compl i h with ⟨q, h1, h2⟩ | h
    · obtain ⟨p, h3, h4⟩ := hsome' _ q h1
      exact Or.inl ⟨p, h3, h4.trans h2⟩
    · exact Or.inr h
  case hist => exact hi.hist

/-- What an event that is handled does to the trace. -/
theorem handled_cons {f sid : Nat} {ev : Event M} {d : Bytes} {e : Ev M} (he : e = .responded f sid ev ∨ e = .called f sid ev d) (t : List (Ev M)) (i : Nat) :
    arrivals (e :: t) i = arrivals t i ∧ handled (e :: t) i = (if sid = i then handled t i ++ [ev] else handled t i) ∧
      running (e :: t) i = (if sid = i then some f else running t i) ∧ consumed (e :: t) i = consumed t i := by
  rcases he with rfl | rfl <;> exact ⟨rfl, rfl, rfl, rfl⟩

theorem received_handled {f sid : Nat} {ev : Event M} {d : Bytes} {e : Ev M} (he : e = .responded f sid ev ∨ e = .called f sid ev d) (t : List (Ev M)) (i : Nat) :
    received (e :: t) i = if sid = i ∧ ev.ty = .data then received t i ++ ev.data else received t i := by
  unfold received
  rw [(handled_cons he t i).2.1]
  by_cases h1 : sid = i <;> by_cases h2 : ev.ty = .data <;> simp [h1, h2]

/-- An event is handled. -/
theorem Inv.handle {s : Sys M} (hi : Inv s) (ha : alive s = true) {f : Nat} {x : Fiber M} (hf : s.fibs[f]? = some x) (hx : x.st = .ready) {q : Queue M} (ht : s.table x.addr = some q)
    {ev : Event M} {r : List (Event M)} (hq : q.events = ev :: r) {e : Ev M} (he : e = .responded f q.sid ev ∨ e = .called f q.sid ev (view q ev)) :
    Inv { s with
          fibs := setFib s f (.calling q.sid ev)
          table := setTable s x.addr (if ev.ty = .close then none else some { q with events := r, stream := if ev.ty = .data then q.stream ++ ev.data else q.stream })
          trace := e :: s.trace } := by
  have hseq := hi.seq _ q ht
  have hmem := hi.tab _ q ht
  have hadr := hi.mem _ _ hmem
  have hget : ∀ (g : Nat) (y : Fiber M), (setFib s f (.calling q.sid ev))[g]? = some y → (g = f ∧ y = { x with st := .calling q.sid ev }) ∨ (g ≠ f ∧ s.fibs[g]? = some y) := by
    intro g y h
    rw [setFib_get] at h
    split at h
    · rename_i he; subst he; rw [hf] at h; simp at h; exact Or.inl ⟨rfl, h.symm⟩
    · rename_i he; exact Or.inr ⟨fun h => he h.symm, h⟩
  have hget' : ∀ (g : Nat) (y : Fiber M), s.fibs[g]? = some y → g ≠ f → (setFib s f (.calling q.sid ev))[g]? = some y := by
    intro g y h hne
    rw [setFib_get, if_neg (fun h => hne h.symm)]
    exact h
  have hself : (setFib s f (.calling q.sid ev))[f]? = some { x with st := .calling q.sid ev } := by rw [setFib_get, if_pos rfl, hf]; rfl
  have hrun : running s.trace q.sid = none := by
    cases h : running s.trace q.sid with
    | none => rfl
    | some g =>
      obtain ⟨y, ev', hg, hy⟩ := (hi.run q.sid g).mp h
      have h1 := hi.mem _ _ (hi.call g y _ _ hg hy)
      have h2 : g = f := hi.uniq g y f x hg hf (h1.1.symm.trans hadr.1) (by rw [hy]; simp) (by rw [hx]; simp)
      subst h2
      rw [hf] at hg
      cases hg
      rw [hx] at hy
      cases hy
  have hpre : handled s.trace q.sid ++ [ev] <+: arrivals s.trace q.sid := by
    rw [hseq.1, hq]
    exact ⟨r, by simp⟩
  have hlaw : Lawful s.trace e := by
    rcases he with rfl | rfl
    · exact ⟨hrun, hseq.2, hpre⟩
    · refine ⟨hrun, hseq.2, hpre, ?_⟩
      unfold view
      split
      · rw [← hi.str _ q ht, List.append_assoc]
      · rfl
  have hH := handled_cons he s.trace
  have hR := received_handled he s.trace
  have hsome : ∀ b p, setTable s x.addr (if ev.ty = .close then none else some { q with events := r, stream := if ev.ty = .data then q.stream ++ ev.data else q.stream }) b = some p →
      (b ≠ x.addr ∧ s.table b = some p ∧ q.sid ≠ p.sid) ∨
        (b = x.addr ∧ ev.ty ≠ .close ∧ p = { q with events := r, stream := if ev.ty = .data then q.stream ++ ev.data else q.stream }) := by
    intro b p h
    simp only [setTable] at h
    split at h
    · rename_i hb
      split at h
      · cases h
      · rename_i hc; cases h; exact Or.inr ⟨hb, hc, rfl⟩
    · rename_i hb
      refine Or.inl ⟨hb, h, fun hs => hb ?_⟩
      have := (hi.mem _ _ (hi.tab b p h)).1
      rw [← hs, hadr.1] at this
      exact this.symm
  have halv' : ∀ t, alive { s with fibs := setFib s f (.calling q.sid ev), table := t, trace := e :: s.trace } = true := by
    intro t
    unfold alive
    simp only [Bool.or_eq_true]
    exact Or.inr (any_calling.mpr ⟨f, _, _, _, hself, rfl⟩)
  constructor
  case alv => intro h; rw [halv'] at h; cases h
  case tab =>
    intro b p h
    rcases hsome b p h with ⟨_, h, _⟩ | ⟨rfl, _, rfl⟩
    · exact hi.tab b p h
    · exact hmem
  case mem => exact hi.mem
  case call =>
    intro g y i ev' h1 h2
    rcases hget g y h1 with ⟨rfl, rfl⟩ | ⟨_, h1⟩
    · cases h2; exact hmem
    · exact hi.call g y i ev' h1 h2
  case uniq =>
    intro g y g' y' h1 h2 hyy hy hy'
    rcases hget g y h1 with ⟨rfl, rfl⟩ | ⟨hn, h1n⟩ <;> rcases hget g' y' h2 with ⟨rfl, rfl⟩ | ⟨hn', h2⟩
    · rfl
    · exact hi.uniq _ x g' y' hf h2 hyy (by rw [hx]; simp) hy'
    · exact hi.uniq g y _ x h1n hf hyy hy (by rw [hx]; simp)
    · exact hi.uniq g y g' y' h1n h2 hyy hy hy'
  case act =>
    have hiff : ∀ b, (∃ (g : Nat) (y : Fiber M), (setFib s f (.calling q.sid ev))[g]? = some y ∧ y.addr = b ∧ y.st ≠ .done) ↔
        ∃ (g : Nat) (y : Fiber M), s.fibs[g]? = some y ∧ y.addr = b ∧ y.st ≠ .done := by
      intro b
      constructor
      · rintro ⟨g, y, h1, h2, h3⟩
        rcases hget g y h1 with ⟨rfl, rfl⟩ | ⟨_, h1⟩
        · exact ⟨_, x, hf, h2, by rw [hx]; simp⟩
        · exact ⟨g, y, h1, h2, h3⟩
      · rintro ⟨g, y, h1, h2, h3⟩
        by_cases hg : g = f
        · subst hg; rw [hf] at h1; cases h1
          exact ⟨_, _, hself, h2, by simp⟩
        · exact ⟨g, y, hget' g y h1 hg, h2, h3⟩
    intro b p h
    rw [hiff]
    rcases hsome b p h with ⟨_, h, _⟩ | ⟨rfl, _, rfl⟩
    · exact hi.act b p h
    · exact hi.act _ q ht
  case pend =>
    intro b p h hp
    rcases hsome b p h with ⟨_, h, _⟩ | ⟨rfl, _, rfl⟩
    · exact hi.pend b p h hp
    · exact hi.pend _ q ht (by rw [hq]; simp)
  case seq =>
    intro b p h
    show arrivals (e :: s.trace) _ = handled (e :: s.trace) _ ++ _ ∧ ¬ ∃ e' ∈ handled (e :: s.trace) _, _
    rw [(hH p.sid).1, (hH p.sid).2.1]
    rcases hsome b p h with ⟨_, h, hne⟩ | ⟨rfl, hc, rfl⟩
    · rw [if_neg hne]; exact hi.seq b p h
    · simp only [if_true]
      refine ⟨by rw [hseq.1, hq]; simp, ?_⟩
      rintro ⟨e', h1, h2⟩
      rcases List.mem_append.mp h1 with h1 | h1
      · exact hseq.2 ⟨e', h1, h2⟩
      · simp at h1; subst h1; exact hc h2
  case pre =>
    intro i
    show handled (e :: s.trace) i <+: arrivals (e :: s.trace) i ∧ ∀ e' ∈ (handled (e :: s.trace) i).dropLast, _
    rw [(hH i).1, (hH i).2.1]
    split
    · rename_i hi'; subst hi'
      refine ⟨hpre, ?_⟩
      rw [List.dropLast_concat]
      exact fun e' h1 h2 => hseq.2 ⟨e', h1, h2⟩
    · exact hi.pre i
  case fresh =>
    intro i h
    have := hi.fresh i h
    have hne : q.sid ≠ i := by simp only at h; omega
    show arrivals (e :: s.trace) i = _ ∧ handled (e :: s.trace) i = _ ∧ running (e :: s.trace) i = _ ∧ consumed (e :: s.trace) i = _
    rw [(hH i).1, (hH i).2.1, (hH i).2.2.1, (hH i).2.2.2, if_neg hne, if_neg hne]
    exact this
  case run =>
    intro i g
    show running (e :: s.trace) i = some g ↔ _
    rw [(hH i).2.2.1]
    by_cases hii : q.sid = i
    · subst hii
      simp only [if_true, Option.some.injEq]
      constructor
      · rintro rfl; exact ⟨_, _, hself, rfl⟩
      · rintro ⟨y, ev', h1, h2⟩
        rcases hget g y h1 with ⟨rfl, _⟩ | ⟨_, h1⟩
        · rfl
        · have := (hi.run q.sid g).mpr ⟨y, ev', h1, h2⟩
          rw [hrun] at this
          cases this
    · rw [if_neg hii, hi.run i g]
      constructor
      · rintro ⟨y, ev', h1, h2⟩
        refine ⟨y, ev', hget' g y h1 ?_, h2⟩
        intro hg; rw [hg, hf] at h1; cases h1; rw [hx] at h2; cases h2
      · rintro ⟨y, ev', h1, h2⟩
        rcases hget g y h1 with ⟨_, rfl⟩ | ⟨_, h1⟩
        · cases h2; exact absurd rfl hii
        · exact ⟨y, ev', h1, h2⟩
  case str =>
    intro b p h
    show consumed (e :: s.trace) _ ++ _ = received (e :: s.trace) _
    rw [(hH p.sid).2.2.2, hR p.sid]
    rcases hsome b p h with ⟨_, h, hne⟩ | ⟨rfl, hc, rfl⟩
    · rw [if_neg (fun hh => hne hh.1)]; exact hi.str b p h
    · simp only [true_and]
      have := hi.str _ q ht
      split
      · rw [← this, List.append_assoc]
      · exact this
  case stp =>
    rw [show (_ : Bool) = true ↔ _ from hi.stp]
    rcases he with rfl | rfl <;> simp
  case compl =>
    intro i h
    have hmono : Closed s.trace i → Closed (e :: s.trace) i := by
      rintro ⟨e', h1, h2⟩
      refine ⟨e', ?_, h2⟩
      rw [(hH i).2.1]
      split
      · exact List.mem_append.mpr (Or.inl h1)
      · exact h1
    rcases hi.compl i h with ⟨p, h1, h2⟩ | h | h
    · by_cases hb : s.addr i = x.addr
      · rw [hb, ht] at h1
        cases h1
        by_cases hc : ev.ty = .close
        · right; left
          refine ⟨ev, ?_, hc⟩
          rw [(hH i).2.1, if_pos h2]
          simp
        · left
          simp only [setTable, hb, if_true, if_neg hc]
          exact ⟨_, rfl, h2⟩
      · left
        refine ⟨p, ?_, h2⟩
        simp only [setTable, if_neg hb]
        exact h1
    · exact Or.inr (Or.inl (hmono h))
    · exact Or.inr (Or.inr h.mono)
  case hist => exact ⟨hlaw, hi.hist⟩

theorem inv_loop {s : Sys M} (hi : Inv s) {f : Nat} {x : Fiber M} (hf : s.fibs[f]? = some x) (hx : x.st = .ready) : Inv (loop s f x.addr) := by
  unfold loop
  simp only
  split
  · rename_i ha
    exact hi.quit hf hx (Or.inl ⟨hi.alv (by simpa using ha) _, rfl⟩)
  · rename_i ha
    split
    · rename_i ht
      exact hi.quit hf hx (Or.inl ⟨ht, rfl⟩)
    · rename_i q ht
      split
      · rename_i hq
        exact hi.quit hf hx (Or.inr ⟨q, ht, hq, rfl⟩)
      · rename_i ev r hq
        exact hi.handle (by simpa using ha) hf hx ht hq (by split <;> simp)

/-- A callback returns. -/
theorem inv_back {s : Sys M} (hi : Inv s) {f : Nat} {x : Fiber M} (hf : s.fibs[f]? = some x) {sid : Nat} {ev : Event M} (hx : x.st = .calling sid ev) (n : Nat) : Inv (back s f sid ev n) := by
  have hmem := hi.call f x _ _ hf hx
  have hadr := hi.mem _ _ hmem
  have hget : ∀ (g : Nat) (y : Fiber M), (setFib s f .ready)[g]? = some y → (g = f ∧ y = { x with st := .ready }) ∨ (g ≠ f ∧ s.fibs[g]? = some y) := by
    intro g y h
    rw [setFib_get] at h
    split at h
    · rename_i he; subst he; rw [hf] at h; simp at h; exact Or.inl ⟨rfl, h.symm⟩
    · rename_i he; exact Or.inr ⟨fun h => he h.symm, h⟩
  have hget' : ∀ (g : Nat) (y : Fiber M), s.fibs[g]? = some y → g ≠ f → (setFib s f .ready)[g]? = some y := by
    intro g y h hne
    rw [setFib_get, if_neg (fun h => hne h.symm)]
    exact h
  have hself : (setFib s f .ready)[f]? = some { x with st := .ready } := by rw [setFib_get, if_pos rfl, hf]; rfl
  have hrun : running s.trace sid = some f := (hi.run sid f).mpr ⟨x, ev, hf, hx⟩
  -- what `back` does, in general
  have key : ∃ t b, back s f sid ev n = { s with fibs := setFib s f .ready, table := t, trace := .returned f sid b :: s.trace } ∧
      (alive (back s f sid ev n) = false → ∀ a, t a = none) ∧
      (∀ a p, t a = some p → ∃ q, s.table a = some q ∧ q.sid = p.sid ∧ q.events = p.events ∧ q.active = p.active ∧ q.stream = (if q.sid = sid then b else []) ++ p.stream) ∧
      (∀ a q, s.table a = some q → (∃ p, t a = some p ∧ p.sid = q.sid) ∨ s.stopped = true) := by
    have hal : ∀ t b, (alive { s with fibs := setFib s f .ready, table := t, trace := .returned f sid b :: s.trace } = false) ↔
        (s.stopped && !(setFib s f .ready).any (·.st.isCalling)) = true := by
      intro t b
      unfold alive
      simp only
      cases s.stopped <;> cases (setFib s f .ready).any (·.st.isCalling) <;> simp
    unfold back
    simp only
    cases ht : s.table (s.addr sid) with
    | none =>
      simp only
      refine ⟨_, _, rfl, ?_, ?_, ?_⟩
      · intro h a; rw [if_pos ((hal _ _).mp h)]
      · intro a p h
        split at h
        · cases h
        · exact ⟨p, h, rfl, rfl, rfl, by simp⟩
      · intro a q h
        split
        · rename_i hg; simp only [Bool.and_eq_true] at hg; exact Or.inr hg.1
        · exact Or.inl ⟨q, h, rfl⟩
    | some q0 =>
      simp only
      split
      · rename_i hd
        refine ⟨_, _, rfl, ?_, ?_, ?_⟩
        · intro h a; rw [if_pos ((hal _ _).mp h)]
        · intro a p h
          split at h
          · cases h
          · simp only [setTable] at h
            split at h
            · rename_i ha; subst ha; cases h
              refine ⟨q0, ht, rfl, rfl, rfl, ?_⟩
              rw [if_pos hd.2]
              exact (List.take_append_drop n q0.stream).symm
            · rename_i ha
              refine ⟨p, h, rfl, rfl, rfl, ?_⟩
              have : p.sid ≠ sid := by
                intro hs
                have := (hi.mem _ _ (hi.tab a p h)).1
                rw [hs] at this
                exact ha this.symm
              rw [if_neg this]; rfl
        · intro a q h
          split
          · rename_i hg; simp only [Bool.and_eq_true] at hg; exact Or.inr hg.1
          · left
            simp only [setTable]
            split
            · rename_i ha; rw [ha, ht] at h; cases h; exact ⟨_, rfl, rfl⟩
            · exact ⟨q, h, rfl⟩
      · refine ⟨_, _, rfl, ?_, ?_, ?_⟩
        · intro h a; rw [if_pos ((hal _ _).mp h)]
        · intro a p h
          split at h
          · cases h
          · exact ⟨p, h, rfl, rfl, rfl, by simp⟩
        · intro a q h
          split
          · rename_i hg; simp only [Bool.and_eq_true] at hg; exact Or.inr hg.1
          · exact Or.inl ⟨q, h, rfl⟩
  obtain ⟨t, b, hb, hal, hsome, hsome'⟩ := key
  rw [hb] at hal ⊢
  have hcons : ∀ i, consumed (.returned f sid b :: s.trace) i = if sid = i then consumed s.trace i ++ b else consumed s.trace i := fun i => rfl
  have hrunc : ∀ i, running (.returned f sid b :: s.trace) i = if sid = i then none else running s.trace i := fun i => rfl
  constructor
  case alv => exact hal
  case tab => intro a p h; obtain ⟨q, h1, h2, _⟩ := hsome a p h; rw [← h2]; exact hi.tab a q h1
  case mem => exact hi.mem
  case call =>
    intro g y i ev' h1 h2
    rcases hget g y h1 with ⟨rfl, rfl⟩ | ⟨_, h1⟩
    · cases h2
    · exact hi.call g y i ev' h1 h2
  case uniq =>
    intro g y g' y' h1 h2 hyy hy hy'
    rcases hget g y h1 with ⟨rfl, rfl⟩ | ⟨hn, h1n⟩ <;> rcases hget g' y' h2 with ⟨rfl, rfl⟩ | ⟨hn', h2⟩
    · rfl
    · exact hi.uniq _ x g' y' hf h2 hyy (by rw [hx]; simp) hy'
    · exact hi.uniq g y _ x h1n hf hyy hy (by rw [hx]; simp)
    · exact hi.uniq g y g' y' h1n h2 hyy hy hy'
  case act =>
    intro a p h
    obtain ⟨q, h1, h2, h3, h4, h5⟩ := hsome a p h
    rw [← h4, hi.act a q h1]
    constructor
    · rintro ⟨g, y, h1, h2, h3⟩
      by_cases hg : g = f
      · subst hg; rw [hf] at h1; cases h1
        exact ⟨_, _, hself, h2, by simp⟩
      · exact ⟨g, y, hget' g y h1 hg, h2, h3⟩
    · rintro ⟨g, y, h1, h2, h3⟩
      rcases hget g y h1 with ⟨rfl, rfl⟩ | ⟨_, h1⟩
      · exact ⟨_, x, hf, h2, by rw [hx]; simp⟩
      · exact ⟨g, y, h1, h2, h3⟩
  case pend =>
    intro a p h hp
    obtain ⟨q, h1, h2, h3, h4, h5⟩ := hsome a p h
    rw [← h4]; exact hi.pend a q h1 (by rw [h3]; exact hp)
  case seq => intro a p h; obtain ⟨q, h1, h2, h3, _⟩ := hsome a p h; rw [← h2, ← h3]; exact hi.seq a q h1
  case pre => exact hi.pre
  case fresh =>
    intro i h
    have := hi.fresh i h
    have hne : sid ≠ i := by simp only at h; omega
    show _ ∧ _ ∧ running (_ :: s.trace) i = _ ∧ consumed (_ :: s.trace) i = _
    rw [hcons, hrunc, if_neg hne, if_neg hne]
    exact this
  case run =>
    intro i g
    show running (_ :: s.trace) i = some g ↔ _
    rw [hrunc]
    by_cases hii : sid = i
    · subst hii
      simp only [if_true, reduceCtorEq, false_iff]
      rintro ⟨y, ev', h1, h2⟩
      rcases hget g y h1 with ⟨rfl, rfl⟩ | ⟨hne, h1⟩
      · cases h2
      · have := (hi.run sid g).mpr ⟨y, ev', h1, h2⟩
        rw [hrun] at this
        exact hne (Option.some.inj this).symm
    · rw [if_neg hii, hi.run i g]
      constructor
      · rintro ⟨y, ev', h1, h2⟩
        refine ⟨y, ev', hget' g y h1 ?_, h2⟩
        intro hg; rw [hg, hf] at h1; cases h1; rw [hx] at h2; cases h2; exact hii rfl
      · rintro ⟨y, ev', h1, h2⟩
        rcases hget g y h1 with ⟨_, rfl⟩ | ⟨_, h1⟩
        · cases h2
        · exact ⟨y, ev', h1, h2⟩
  case str =>
    intro a p h
    obtain ⟨q, h1, h2, h3, h4, h5⟩ := hsome a p h
    show consumed (_ :: s.trace) _ ++ _ = received s.trace _
    rw [hcons, ← h2, ← hi.str a q h1, h5]
    by_cases hq : q.sid = sid
    · rw [if_pos hq.symm, if_pos hq, List.append_assoc]
    · rw [if_neg (fun h => hq h.symm), if_neg hq, List.nil_append]
  case stp =>
    rw [show (_ : Bool) = true ↔ _ from hi.stp]
    simp
  case compl =>
    intro i h
    rcases hi.compl i h with ⟨q, h1, h2⟩ | h | h
    · rcases hsome' _ q h1 with ⟨p, h3, h4⟩ | h3
      · exact Or.inl ⟨p, h3, h4.trans h2⟩
      · exact Or.inr (Or.inr (Or.inl (.tail _ (hi.stp.mp h3))))
    · exact Or.inr (Or.inl h)
    · exact Or.inr (Or.inr h.mono)
  case hist => exact ⟨hrun, hi.hist⟩

theorem step_careful {s s' : Sys M} {a : Act M} (hs : step s a = some s') : s'.careful = s.careful := by
  cases a <;> simp only [step] at hs
  case accept =>
    split at hs
    · cases hs
    · split at hs
      · cases hs
      · cases hs; rfl
  case push =>
    split at hs
    · cases hs; unfold push; simp only; repeat' split
      all_goals rfl
    · cases hs
  case free =>
    split at hs
    · cases hs; rfl
    · cases hs
  case stop => cases hs; rfl
  case resume =>
    repeat' split at hs
    all_goals cases hs
    rfl
  case loop =>
    repeat' split at hs
    all_goals cases hs
    unfold loop; simp only; repeat' split
    all_goals rfl
  case yield =>
    repeat' split at hs
    all_goals cases hs
    rfl
  case back =>
    repeat' split at hs
    all_goals cases hs
    unfold back; simp only; repeat' split
    all_goals rfl

theorem inv_step {s s' : Sys M} {a : Act M} (hi : Inv s) (hc : s.careful = true) (hs : step s a = some s') : Inv s' := by
  cases a with
  | accept a => exact inv_accept hi hc hs
  | push i ev fail =>
    simp only [step] at hs
    split at hs
    · rename_i h; cases hs; exact inv_push hi h.1 h.2
    · cases hs
  | free i => exact inv_free hi hs
  | stop => simp only [step, Option.some.injEq] at hs; subst hs; exact inv_stop hi
  | resume f =>
    simp only [step] at hs
    repeat' split at hs
    all_goals first | cases hs; done | skip
    cases hs
    exact { hi with alv := hi.alv }
  | loop f =>
    simp only [step] at hs
    repeat' split at hs
    all_goals first | cases hs; done | skip
    rename_i x hf hx
    cases hs
    exact inv_loop hi hf hx
  | yield f =>
    simp only [step] at hs
    repeat' split at hs
    all_goals first | cases hs; done | skip
    cases hs
    exact { hi with alv := hi.alv }
  | back f n =>
    simp only [step] at hs
    repeat' split at hs
    all_goals first | cases hs; done | skip
    rename_i x hf _ _ _ hx
    cases hs
    exact inv_back hi hf hx n

theorem inv {s : Sys M} (h : Reachable s) (hc : s.careful = true) : Inv s := by
  induction h with
  | init c => exact inv_init c
  | step _ hs ih => exact inv_step (ih ((step_careful hs).symm.trans hc)) ((step_careful hs).symm.trans hc) hs

end Verif.Easy
