import Verif.Spec.Locks
/-!
# No circle of waiting threads
-/
namespace Verif.Locks
open Op Lock Spec.Locks

/-- Mutexes that one thread only ever locks. -/
def Lock.priv : Lock → Bool
  | .event | .fiber _ | .task _ | .timer _ => true
  | _ => false

def Lock.rank : Lock → Nat
  | .event | .fiber _ | .task _ | .timer _ => 0
  | .future _ => 1
  | .deflate _ | .inflate _ => 2
  | .table _ => 2
  | .epoll => 3
  | .sock _ => 4
  | .taskQueue | .timerQueue | .fiberQueue => 5
  | .netConf | .fiberConf | .connConf _ | .connPool _ | .mainConf | .uuid => 5
  | .logQueue => 6
  | .logIo => 7
  | .logConf => 8

/-- The order in which threads other than the network thread lock mutexes. -/
def okW (H : List Lock) (l : Lock) : Prop :=
  if l.priv then l ∉ H
  else ∀ h ∈ H, h.priv = true ∨ (h.rank < l.rank ∧ ∀ s, l = .sock s → h = .deflate s ∨ ∃ j, h = .future j)

/-- The order in which the network thread locks mutexes; `Z s` says that no other thread locks the deflator of `s`. -/
def okN (Z : Nat → Prop) (H : List Lock) (l : Lock) : Prop :=
  (l.recursive = true ∨ l ∉ H) ∧ (l.priv = true → l = .event) ∧
    ((∀ h ∈ H, h.rank < l.rank) ∨
      ∃ s, (∀ h ∈ H, h.rank < l.rank ∨ h = .sock s) ∧ (∀ j, l ≠ .future j) ∧ (l = .deflate s → Z s))

/-- A sequence of operations that keeps to an order and unlocks whatever it locks. -/
def Disc (ok : List Lock → Lock → Prop) (H : List Lock) : List Op → Prop
  | [] => H = []
  | .acq l :: r => ok H l ∧ Disc ok (l :: H) r
  | .rel l :: r => l ∈ H ∧ Disc ok (H.erase l) r

/-- Mutexes that a sequence mentions. -/
def mentions (ops : List Op) (l : Lock) : Prop := .acq l ∈ ops

structure Good (Z : Nat → Prop) (st : State) : Prop where
  net : ∀ t, st[0]? = some t → Disc (okN Z) t.held t.rest
  rest : ∀ k t, st[k + 1]? = some t → Disc okW t.held t.rest

/-- Each thread has locked, and will lock, only some mutexes. -/
def Within (M : Nat → Lock → Prop) (st : State) : Prop :=
  ∀ k t, st[k]? = some t → (∀ l ∈ t.held, M k l) ∧ ∀ l, .acq l ∈ t.rest → M k l

theorem step_cases {k st st'} (h : step k st = some st') : ∃ t, st[k]? = some t ∧
    ((∃ l r, t.rest = .acq l :: r ∧ free st k l = true ∧ st' = st.set k { held := l :: t.held, rest := r }) ∨
     (∃ l r, t.rest = .rel l :: r ∧ l ∈ t.held ∧ st' = st.set k { held := t.held.erase l, rest := r })) := by
  unfold step at h
  split at h
  · cases h
  · rename_i t ht
    refine ⟨t, ht, ?_⟩
    split at h
    · cases h
    · rename_i l r hr
      split at h
      · rename_i hf
        exact .inl ⟨l, r, hr, hf, by simpa using h.symm⟩
      · cases h
    · rename_i l r hr
      split at h
      · rename_i hf
        exact .inr ⟨l, r, hr, by simpa using hf, by simpa using h.symm⟩
      · cases h

theorem get_set {st : State} {k j : Nat} {t u v : Thr} (hk : st[k]? = some u) (h : (st.set k t)[j]? = some v) :
    (j = k ∧ v = t) ∨ (j ≠ k ∧ st[j]? = some v) := by
  have hlt : k < st.length := by
    rcases List.getElem?_eq_some_iff.1 hk with ⟨h, _⟩
    exact h
  rw [List.getElem?_set] at h
  split at h
  · rename_i e
    exact .inl ⟨e.symm, by simp at h; exact h.symm⟩
  · rename_i e
    exact .inr ⟨fun h => e h.symm, h⟩

theorem step_good {Z k st st'} (h : step k st = some st') (g : Good Z st) : Good Z st' := by
  obtain ⟨t, ht, hc⟩ := step_cases h
  have key : ∀ ok, Disc ok t.held t.rest → ∀ v, ((∃ l r, t.rest = .acq l :: r ∧ v = (⟨l :: t.held, r⟩ : Thr)) ∨
      (∃ l r, t.rest = .rel l :: r ∧ v = (⟨t.held.erase l, r⟩ : Thr))) → Disc ok v.held v.rest := by
    rintro ok hd v (⟨l, r, hr, rfl⟩ | ⟨l, r, hr, rfl⟩) <;> rw [hr] at hd <;> exact hd.2
  obtain ⟨v, hv, rfl⟩ : ∃ v, ((∃ l r, t.rest = .acq l :: r ∧ v = (⟨l :: t.held, r⟩ : Thr)) ∨
      (∃ l r, t.rest = .rel l :: r ∧ v = (⟨t.held.erase l, r⟩ : Thr))) ∧ st' = st.set k v := by
    rcases hc with ⟨l, r, hr, _, e⟩ | ⟨l, r, hr, _, e⟩
    · exact ⟨_, .inl ⟨l, r, hr, rfl⟩, e⟩
    · exact ⟨_, .inr ⟨l, r, hr, rfl⟩, e⟩
  constructor
  · intro u hu
    rcases get_set ht hu with ⟨e, rfl⟩ | ⟨_, hu⟩
    · subst e
      exact key _ (g.net t ht) _ hv
    · exact g.net u hu
  · intro j u hu
    rcases get_set ht hu with ⟨e, rfl⟩ | ⟨_, hu⟩
    · subst e
      exact key _ (g.rest j t ht) _ hv
    · exact g.rest j u hu

theorem step_within {M k st st'} (h : step k st = some st') (g : Within M st) : Within M st' := by
  obtain ⟨t, ht, hc⟩ := step_cases h
  intro j u hu
  rcases hc with ⟨l, r, hr, _, rfl⟩ | ⟨l, r, hr, _, rfl⟩
  · rcases get_set ht hu with ⟨rfl, rfl⟩ | ⟨_, hu⟩
    · have := g j t ht
      rw [hr] at this
      refine ⟨fun x hx => ?_, fun x hx => this.2 x (by simp [hx])⟩
      rcases List.mem_cons.1 hx with rfl | hx
      · exact this.2 x (by simp)
      · exact this.1 x hx
    · exact g j u hu
  · rcases get_set ht hu with ⟨rfl, rfl⟩ | ⟨_, hu⟩
    · have := g j t ht
      rw [hr] at this
      exact ⟨fun x hx => this.1 x (List.mem_of_mem_erase hx), fun x hx => this.2 x (by simp [hx])⟩
    · exact g j u hu

/-- Why a mutex is not free. -/
theorem not_free {st k l} (h : free st k l = false) :
    ∃ j u, st[j]? = some u ∧ l ∈ u.held ∧ (j = k → l.recursive = false) := by
  unfold free at h
  rw [List.all_eq_false] at h
  obtain ⟨⟨u, j⟩, hm, hx⟩ := h
  have := List.mem_zipIdx_iff_getElem?.1 hm
  simp only [Bool.or_eq_true, Bool.not_eq_true', List.contains_eq_mem, decide_eq_false_iff_not, Bool.and_eq_true, beq_iff_eq, not_or,
    Decidable.not_not, not_and, Bool.not_eq_true] at hx
  exact ⟨j, u, this, hx.1, hx.2⟩

/-- A thread that cannot go on although it has something to do. -/
theorem blocked {st k t ok} (ht : st[k]? = some t) (hd : Disc ok t.held t.rest) (hne : t.rest ≠ [])
    (h : step k st = none) : ∃ l r, t.rest = .acq l :: r ∧ ok t.held l ∧
      ∃ j u, st[j]? = some u ∧ l ∈ u.held ∧ (j = k → l.recursive = false) := by
  unfold step at h
  rw [ht] at h
  simp only at h
  split at h
  · rename_i e
    exact absurd e hne
  · rename_i l r hr
    rw [hr] at hd
    split at h
    · cases h
    · rename_i hf
      exact ⟨l, r, hr, hd.1, not_free (by simpa using hf)⟩
  · rename_i l r hr
    rw [hr] at hd
    rw [if_pos (by simpa using hd.1)] at h
    cases h

theorem disc_unfinished {ok} {t : Thr} {l} (hd : Disc ok t.held t.rest) (hl : l ∈ t.held) : t.rest ≠ [] := by
  intro e
  rw [e] at hd
  rw [show t.held = [] from hd] at hl
  cases hl

/-- What the mutexes that threads are restricted to must satisfy. -/
structure Apart (Z : Nat → Prop) (M : Nat → Lock → Prop) : Prop where
  /-- only one thread locks a private mutex -/
  priv : ∀ l, l.priv = true → ∀ j k, M j l → M k l → j = k
  /-- other threads leave these deflators alone -/
  z : ∀ s, Z s → ∀ k, ¬ M (k + 1) (.deflate s)

section
variable {Z : Nat → Prop} {M : Nat → Lock → Prop} {st : State}

/-- What another thread is blocked by is not private, and some thread (not itself) has it locked. -/
theorem worker_blocked (a : Apart Z M) (g : Good Z st) (w : Within M st) {k t} (ht : st[k + 1]? = some t)
    (hne : t.rest ≠ []) (h : step (k + 1) st = none) :
    ∃ l, (∀ x ∈ t.held, x.priv = true ∨ (x.rank < l.rank ∧ ∀ s, l = .sock s → x = .deflate s ∨ ∃ j, x = .future j)) ∧ l.priv = false ∧
      ∃ j u, st[j]? = some u ∧ l ∈ u.held ∧ j ≠ k + 1 := by
  obtain ⟨l, r, hr, ho, j, u, hu, hl, hj⟩ := blocked ht (g.rest k t ht) hne h
  have hm : M (k + 1) l := (w _ t ht).2 l (by simp [hr])
  by_cases hp : l.priv = true
  · have e := a.priv l hp j (k + 1) ((w j u hu).1 l hl) hm
    subst e
    rw [ht] at hu
    cases hu
    unfold okW at ho
    rw [if_pos hp] at ho
    exact absurd hl ho
  · unfold okW at ho
    rw [if_neg hp] at ho
    refine ⟨l, ho, by simpa using hp, j, u, hu, hl, ?_⟩
    rintro rfl
    rw [ht] at hu
    cases hu
    rcases ho l hl with h | h
    · exact hp h
    · omega

theorem rank_pos {l : Lock} (h : l.priv = false) : 1 ≤ l.rank := by
  cases l <;> simp_all [Lock.priv, Lock.rank]

theorem rank_deflate {x : Lock} {s : Nat} (hp : x.priv = false) (h : x.rank < (Lock.deflate s).rank) : ∃ j, x = .future j := by
  cases x <;> simp_all [Lock.priv, Lock.rank]

/-- If nothing moves, then from a mutex that another thread has locked, waiting leads to one that the network thread has locked. -/
theorem leads (a : Apart Z M) (g : Good Z st) (w : Within M st) (stuck : ∀ k, step k st = none) (n : Nat) :
    ∀ {k t l}, st[k + 1]? = some t → l ∈ t.held → l.priv = false → 9 ≤ l.rank + n →
      ∃ N m, st[0]? = some N ∧ m ∈ N.held ∧ l.rank < m.rank ∧ ∀ s, m = .sock s → l = .deflate s ∨ ∃ j, l = .future j := by
  induction n with
  | zero =>
    intro k t l _ _ hp h
    cases l <;> simp_all [Lock.rank, Lock.priv]
  | succ n ih =>
    intro k t l ht hl hp h
    obtain ⟨l', ho, hp', j, u, hu, hl', hj⟩ := worker_blocked a g w ht (disc_unfinished (g.rest k t ht) hl) (stuck _)
    rcases ho l hl with h' | ⟨hlt, hs⟩
    · simp [hp] at h'
    match j with
    | 0 => exact ⟨u, l', hu, hl', hlt, hs⟩
    | j + 1 =>
      obtain ⟨N, m, hN, hm, hlt', hs'⟩ := ih hu hl' hp' (by omega)
      refine ⟨N, m, hN, hm, by omega, fun s e => ?_⟩
      rcases hs' s e with rfl | ⟨f, rfl⟩
      · exact .inr (rank_deflate hp hlt)
      · have := rank_pos hp
        have : (Lock.future f).rank = 1 := rfl
        omega

/-- Some thread can go on, unless all have finished. -/
theorem progress (a : Apart Z M) (g : Good Z st) (w : Within M st) (stuck : ∀ k, step k st = none) : Finished st := by
  have workers : ∀ N, st[0]? = some N → N.rest = [] → ∀ k t, st[k + 1]? = some t → t.rest = [] := by
    intro N hN hf k t ht
    rw [← Decidable.not_not (p := t.rest = [])]
    intro hne
    obtain ⟨l, _, hp, j, u, hu, hl, hj⟩ := worker_blocked a g w ht hne (stuck _)
    have hd := g.net N hN
    rw [hf] at hd
    match j with
    | 0 =>
      rw [hN] at hu
      cases hu
      rw [show N.held = [] from hd] at hl
      cases hl
    | j + 1 =>
      obtain ⟨N', m, hN', hm, _⟩ := leads a g w stuck 9 hu hl hp (by omega)
      rw [hN] at hN'
      cases hN'
      rw [show N.held = [] from hd] at hm
      cases hm
  have net : ∀ N, st[0]? = some N → N.rest = [] := by
    intro N hN
    rw [← Decidable.not_not (p := N.rest = [])]
    intro hne
    obtain ⟨l, r, hr, ⟨hself, hpriv, ho⟩, j, u, hu, hl, hj⟩ := blocked hN (g.net N hN) hne (stuck _)
    match j with
    | 0 =>
      rw [hN] at hu
      cases hu
      rcases hself with h | h
      · simp [hj rfl] at h
      · exact h hl
    | j + 1 =>
      have hp : l.priv = false := by
        rw [← Bool.not_eq_true]
        intro hp
        exact absurd (a.priv l hp 0 (j + 1) ((w 0 N hN).2 l (by simp [hr])) ((w _ u hu).1 l hl)) (by omega)
      obtain ⟨N', m, hN', hm, hlt, hs⟩ := leads a g w stuck 9 hu hl hp (by omega)
      rw [hN] at hN'
      cases hN'
      rcases ho with ho | ⟨s, ho, hfut, hz⟩
      · have := ho m hm
        omega
      · rcases ho m hm with h | h
        · omega
        · rcases hs s h with h | ⟨f, h⟩
          · exact a.z s (hz h) j (h ▸ (w _ u hu).1 l hl)
          · exact hfut f h
  intro t ht
  obtain ⟨k, hk⟩ := List.mem_iff_getElem?.1 ht
  match k with
  | 0 =>
    have h := net t hk
    have hd := g.net t hk
    rw [h] at hd
    exact ⟨h, hd⟩
  | k + 1 =>
    have h0 : 0 < st.length := by
      rcases List.getElem?_eq_some_iff.1 hk with ⟨h, _⟩
      omega
    have hN : st[0]? = some st[0] := List.getElem?_eq_getElem h0
    have h := workers _ hN (net _ hN) k t hk
    have hd := g.rest k t hk
    rw [h] at hd
    exact ⟨h, hd⟩
end

/-! ### Runs -/

theorem run_good {Z} : ∀ {ks st st'}, run st ks = some st' → Good Z st → Good Z st'
  | [], st, st', h, g => by cases h; exact g
  | k :: ks, st, st', h, g => by
    rw [run] at h
    cases hs : step k st with
    | none => rw [hs] at h; cases h
    | some s => rw [hs] at h; exact run_good h (step_good hs g)

theorem run_within {M} : ∀ {ks st st'}, run st ks = some st' → Within M st → Within M st'
  | [], st, st', h, g => by cases h; exact g
  | k :: ks, st, st', h, g => by
    rw [run] at h
    cases hs : step k st with
    | none => rw [hs] at h; cases h
    | some s => rw [hs] at h; exact run_within h (step_within hs g)

theorem run_append : ∀ {ks js st}, run st (ks ++ js) = (run st ks).bind fun s => run s js
  | [], js, st => rfl
  | k :: ks, js, st => by
    simp only [List.cons_append, run]
    cases step k st with
    | none => rfl
    | some s => exact run_append

/-- Operations left. -/
def left (st : State) : Nat := (st.map fun t => t.rest.length).sum

theorem left_set : ∀ {st : State} {k t u}, st[k]? = some t → u.rest.length + 1 = t.rest.length → left (st.set k u) + 1 = left st
  | [], k, t, u, h, _ => by simp at h
  | x :: st, 0, t, u, h, e => by
    simp at h
    subst h
    simp [left]
    omega
  | x :: st, k + 1, t, u, h, e => by
    have := left_set (st := st) (k := k) (by simpa using h) e
    simp only [left, List.set_cons_succ, List.map_cons, List.sum_cons] at this ⊢
    omega

theorem step_left {k st st'} (h : step k st = some st') : left st' + 1 = left st := by
  obtain ⟨t, ht, ⟨l, r, hr, _, rfl⟩ | ⟨l, r, hr, _, rfl⟩⟩ := step_cases h <;> exact left_set ht (by simp [hr])

theorem run_left : ∀ {ks st st'}, run st ks = some st' → left st' + ks.length = left st
  | [], st, st', h => by cases h; rfl
  | k :: ks, st, st', h => by
    rw [run] at h
    cases hs : step k st with
    | none => rw [hs] at h; cases h
    | some s =>
      rw [hs] at h
      have := run_left h
      have := step_left hs
      simp only [List.length_cons]
      omega

/-- All threads can finish. -/
theorem completes {Z M} (a : Apart Z M) : ∀ n {st}, left st ≤ n → Good Z st → Within M st → ∃ ks st', run st ks = some st' ∧ Finished st' := by
  intro n
  induction n with
  | zero =>
    intro st hn g w
    refine ⟨[], st, rfl, progress a g w fun k => ?_⟩
    cases h : step k st with
    | none => rfl
    | some s => have := step_left h; omega
  | succ n ih =>
    intro st hn g w
    by_cases hst : ∀ k, step k st = none
    · exact ⟨[], st, rfl, progress a g w hst⟩
    · obtain ⟨k, hk⟩ := Classical.not_forall.1 hst
      cases h : step k st with
      | none => exact absurd h hk
      | some s =>
        have := step_left h
        obtain ⟨ks, st', hr, hf⟩ := ih (by omega) (step_good h g) (step_within h w)
        exact ⟨k :: ks, st', by rw [run, h]; exact hr, hf⟩

theorem free_false {st : State} {k j l u} (hu : st[j]? = some u) (hl : l ∈ u.held) (h : j = k → l.recursive = false) : free st k l = false := by
  unfold free
  rw [List.all_eq_false]
  refine ⟨(u, j), List.mem_zipIdx_iff_getElem?.2 hu, ?_⟩
  simp only [Bool.or_eq_true, Bool.not_eq_true', List.contains_eq_mem, decide_eq_false_iff_not, Bool.and_eq_true, beq_iff_eq, not_or,
    Decidable.not_not, not_and, Bool.not_eq_true]
  exact ⟨hl, h⟩

theorem deadlock_none {st C k} (h : Deadlock st C) (hk : k ∈ C) : step k st = none := by
  obtain ⟨t, l, r, ht, hr, j, _, u, hu, hl, hj⟩ := h.2 k hk
  unfold step
  rw [ht]
  simp only [hr]
  rw [if_neg]
  rw [free_false hu hl hj]
  simp

theorem deadlock_step {st st' C k} (h : Deadlock st C) (hs : step k st = some st') : Deadlock st' C := by
  have hk : k ∉ C := fun hk => by rw [deadlock_none h hk] at hs; cases hs
  obtain ⟨t, ht, hc⟩ := step_cases hs
  have keep : ∀ j ∈ C, st'[j]? = st[j]? := by
    intro j hj
    have hne : k ≠ j := fun e => hk (e ▸ hj)
    rcases hc with ⟨l, r, _, _, rfl⟩ | ⟨l, r, _, _, rfl⟩ <;> rw [List.getElem?_set_ne hne]
  refine ⟨h.1, fun j hj => ?_⟩
  obtain ⟨t, l, r, ht, hr, i, hi, u, hu, hx⟩ := h.2 j hj
  exact ⟨t, l, r, by rw [keep j hj]; exact ht, hr, i, hi, u, by rw [keep i hi]; exact hu, hx⟩

theorem deadlock_run : ∀ {ks st st' C}, Deadlock st C → run st ks = some st' → Deadlock st' C
  | [], st, st', C, h, hr => by cases hr; exact h
  | k :: ks, st, st', C, h, hr => by
    rw [run] at hr
    cases hs : step k st with
    | none => rw [hs] at hr; cases hr
    | some s => rw [hs] at hr; exact deadlock_run (deadlock_step h hs) hr

theorem deadlock_unfinished {st C} (h : Deadlock st C) : ¬ Finished st := by
  intro hf
  obtain ⟨hne, hc⟩ := h
  match C, hne with
  | k :: C, _ =>
    obtain ⟨t, l, r, ht, hr, _⟩ := hc k (by simp)
    have := (hf t (List.mem_of_getElem? ht)).1
    rw [hr] at this
    cases this

end Verif.Locks
