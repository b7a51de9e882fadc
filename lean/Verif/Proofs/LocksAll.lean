import Verif.Proofs.LocksOrder
/-!
# No deadlock in any program
-/
namespace Verif.Locks
open Op Lock Spec.Locks

theorem all_logs {P : Lock → Prop} (h : P logQueue) : ∀ n, ∀ l, acq l ∈ logs n → P l
  | 0, l, hl => by cases hl
  | n + 1, l, hl => by
    simp only [logs, List.mem_cons, Op.acq.injEq, reduceCtorEq, false_or] at hl
    rcases hl with rfl | hl
    · exact h
    · exact all_logs h n l hl

theorem all_call (c : Call) : ∀ l, acq l ∈ c.ops → l.priv = false ∧ ∀ s, l = .deflate s → ∃ m f, c = .sendCompressed s m f := by
  have lg : ∀ n l, acq l ∈ logs n → l.priv = false ∧ ∀ s, l = .deflate s → ∃ m f, c = .sendCompressed s m f :=
    all_logs ⟨rfl, fun s e => by cases e⟩
  cases c with
  | synchronize p => cases p <;> simp [Call.ops, or_imp, forall_and, Lock.priv]
  | sendCompressed s n f =>
    have lp := fun n l h => (lg n l h).1
    have ld := fun n l h => (lg n l h).2
    cases f
    · simp [Call.ops, or_imp, forall_and, Lock.priv]
      exact ⟨lp _, by simpa using ld _⟩
    · simp [Call.ops, or_imp, forall_and, Lock.priv]
      exact ⟨⟨lp _, lp _⟩, by simpa using ld _, by simpa using ld _⟩
  | push t f n =>
    have lp := fun n l h => (lg n l h).1
    have ld := fun n l h => (lg n l h).2
    cases f <;> simp [Call.ops, or_imp, forall_and, Lock.priv] <;> exact ⟨lp _, by simpa using ld _⟩
  | pool t f n =>
    have lp := fun n l h => (lg n l h).1
    have ld := fun n l h => (lg n l h).2
    cases f <;> simp [Call.ops, or_imp, forall_and, Lock.priv] <;> exact ⟨lp _, by simpa using ld _⟩
  | log =>
    have lp := fun n l h => (lg n l h).1
    have ld := fun n l h => (lg n l h).2
    simp [Call.ops, or_imp, forall_and, Lock.priv]
    exact ⟨lp _, by simpa using ld _⟩
  | send =>
    have lp := fun n l h => (lg n l h).1
    have ld := fun n l h => (lg n l h).2
    simp [Call.ops, or_imp, forall_and, Lock.priv]
    exact ⟨lp _, by simpa using ld _⟩
  | insertSocket =>
    have lp := fun n l h => (lg n l h).1
    have ld := fun n l h => (lg n l h).2
    simp [Call.ops, or_imp, forall_and, Lock.priv]
    exact ⟨lp _, by simpa using ld _⟩
  | _ => simp [Call.ops, or_imp, forall_and, Lock.priv]

theorem all_body (cs : List Call) : ∀ l, acq l ∈ body cs → l.priv = false ∧ ∀ s, l = .deflate s → ∃ m f, .sendCompressed s m f ∈ cs := by
  intro l h
  obtain ⟨c, hc, h⟩ := List.mem_flatMap.1 h
  have := all_call c l h
  refine ⟨this.1, fun s e => ?_⟩
  obtain ⟨m, f, rfl⟩ := this.2 s e
  exact ⟨m, f, hc⟩

theorem all_item (i : Item) : ∀ l, acq l ∈ i.ops → l.priv = false ∧ ∀ s, l = .deflate s → ∃ m f, .sendCompressed s m f ∈ calls i := by
  intro l h
  cases i with
  | call c =>
    have := all_call c l h
    refine ⟨this.1, fun s e => ?_⟩
    obtain ⟨m, f, rfl⟩ := this.2 s e
    exact ⟨m, f, by simp [calls]⟩
  | await f =>
    simp [Item.ops] at h
    subst h
    simp [Lock.priv]
  | inited f =>
    simp [Item.ops] at h
    subst h
    simp [Lock.priv]
  | init f cs =>
    simp only [Item.ops, List.mem_cons, List.mem_append, Op.acq.injEq, reduceCtorEq, List.not_mem_nil, or_false, false_or] at h
    rcases h with rfl | h | h | h
    · simp [Lock.priv]
    · exact all_logs (P := fun l => l.priv = false ∧ ∀ s, l = .deflate s → ∃ m f, .sendCompressed s m f ∈ cs) ⟨rfl, fun s e => by cases e⟩ 1 l h
    · exact all_body cs l h
    · exact all_logs (P := fun l => l.priv = false ∧ ∀ s, l = .deflate s → ∃ m f, .sendCompressed s m f ∈ cs) ⟨rfl, fun s e => by cases e⟩ 1 l h

theorem all_items (is : List Item) : ∀ l, acq l ∈ items is →
    l.priv = false ∧ ∀ s, l = .deflate s → ∃ i ∈ is, ∃ m f, .sendCompressed s m f ∈ calls i := by
  intro l h
  obtain ⟨i, hi, h⟩ := List.mem_flatMap.1 h
  have := all_item i l h
  exact ⟨this.1, fun s e => ⟨i, hi, this.2 s e⟩⟩

/-- What a mutex that is locked in a round is: the mutex `p` of what is run, or not private, and then a deflator only if it is used. -/
def Like (p : Lock → Prop) (is : List Item) (l : Lock) : Prop :=
  p l ∨ (l.priv = false ∧ ∀ s, l = .deflate s → ∃ i ∈ is, ∃ m f, Call.sendCompressed s m f ∈ calls i)

theorem like_items {p is l} (h : acq l ∈ items is) : Like p is l := .inr (all_items is l h)

theorem like_logs {p is l n} (h : acq l ∈ logs n) : Like p is l :=
  all_logs (P := Like p is) (.inr ⟨rfl, fun s e => by cases e⟩) n l h

theorem like_task {i x l} (h : acq l ∈ taskRun i x) : Like (fun l => l = .task i ∧ ∃ is, x = some is) (x.getD []) l := by
  cases x with
  | none =>
    simp [taskRun] at h
    subst h
    exact .inr ⟨rfl, fun s e => by cases e⟩
  | some is =>
    simp only [taskRun, List.mem_cons, List.mem_append, Op.acq.injEq, reduceCtorEq, List.not_mem_nil, or_false, false_or] at h
    rcases h with rfl | rfl | h | h
    · exact .inr ⟨rfl, fun s e => by cases e⟩
    · exact .inl ⟨rfl, _, rfl⟩
    · exact like_logs h
    · exact like_items h

theorem like_timer {i x l} (h : acq l ∈ timerRun i x) : Like (fun l => l = .timer i) (x.getD []) l := by
  cases x with
  | none =>
    simp [timerRun] at h
    subst h
    exact .inr ⟨rfl, fun s e => by cases e⟩
  | some is =>
    simp only [timerRun, List.mem_cons, List.mem_append, Op.acq.injEq, reduceCtorEq, List.not_mem_nil, or_false, false_or] at h
    rcases h with rfl | rfl | h | h
    · exact .inr ⟨rfl, fun s e => by cases e⟩
    · exact .inl rfl
    · exact like_logs h
    · exact like_items h

/-- What a round of the main thread does. -/
def within : MainRun → List Item
  | .idle _ => []
  | .fiber _ _ is => is
  | .other is => is

theorem like_main {x : MainRun} {l} (h : acq l ∈ x.ops) : Like (fun l => ∃ f, l = .fiber f) (within x) l := by
  cases x with
  | idle n =>
    simp only [MainRun.ops, List.mem_cons, List.mem_append, Op.acq.injEq, reduceCtorEq, List.not_mem_nil, or_false, false_or] at h
    rcases h with rfl | rfl | h
    · exact .inr ⟨rfl, fun s e => by cases e⟩
    · exact .inr ⟨rfl, fun s e => by cases e⟩
    · exact like_logs h
  | fiber n f is =>
    simp only [MainRun.ops, List.mem_cons, List.mem_append, Op.acq.injEq, reduceCtorEq, List.not_mem_nil, or_false, false_or] at h
    rcases h with rfl | rfl | rfl | h | h
    · exact .inr ⟨rfl, fun s e => by cases e⟩
    · exact .inr ⟨rfl, fun s e => by cases e⟩
    · exact .inl ⟨f, rfl⟩
    · exact like_logs h
    · exact like_items h
  | other is => exact like_items h

theorem like_net {x : NetRun} {l} (h : acq l ∈ x.ops) (hp : l.priv = true) : l = .event := by
  have lg : ∀ {n}, acq l ∈ logs n → l = .event := fun h => by
    have := all_logs (P := fun l => l.priv = false) rfl _ l h
    simp [hp] at this
  cases x with
  | none =>
    simp [NetRun.ops] at h
    rcases h with rfl | rfl <;> simp [Lock.priv] at hp
  | idle =>
    simp [NetRun.ops] at h
    rcases h with rfl | rfl | rfl | rfl
    · simp [Lock.priv] at hp
    · simp [Lock.priv] at hp
    · rfl
    · simp [Lock.priv] at hp
  | gone c =>
    simp only [NetRun.ops, List.mem_cons, List.mem_append, Op.acq.injEq, reduceCtorEq, List.not_mem_nil, or_false, false_or] at h
    rcases h with rfl | rfl | rfl | h | rfl
    · simp [Lock.priv] at hp
    · simp [Lock.priv] at hp
    · rfl
    · exact lg h
    · simp [Lock.priv] at hp
  | event c s cs n =>
    simp only [NetRun.ops, List.mem_cons, List.mem_append, Op.acq.injEq, reduceCtorEq, List.not_mem_nil, or_false, false_or] at h
    rcases h with rfl | rfl | rfl | h | rfl | rfl | h | h
    · simp [Lock.priv] at hp
    · simp [Lock.priv] at hp
    · rfl
    · exact lg h
    · simp [Lock.priv] at hp
    · simp [Lock.priv] at hp
    · simp [(all_body cs l h).1] at hp
    · exact lg h

/-! ### The threads of a program -/

/-- What the mutexes of each thread are like. -/
theorem thread_like (p : Program) : ∀ k ops, p.threads[k]? = some ops → ∀ l, acq l ∈ ops →
    (k = 0 ∧ (l.priv = true → l = .event)) ∨
    (k ≠ 0 ∧ Like (fun l => (k = 1 ∧ ∃ f, l = .fiber f) ∨ (k = 2 ∧ ∃ i, l = .timer i) ∨
      (4 ≤ k ∧ ∃ rs i is, p.tasks[k - 4]? = some rs ∧ (i, some is) ∈ rs ∧ l = .task i)) (elsewhere p) l) := by
  have mono : ∀ {q q' : Lock → Prop} {is is' : List Item} {l}, Like q is l → (q l → q' l) → (∀ i ∈ is, i ∈ is') → Like q' is' l := by
    rintro q q' is is' l (h | ⟨hp, h⟩) hq hi
    · exact .inl (hq h)
    · refine .inr ⟨hp, fun s e => ?_⟩
      obtain ⟨i, hm, h⟩ := h s e
      exact ⟨i, hi i hm, h⟩
  intro k ops hk l hl
  match k, hk with
  | 0, hk =>
    simp only [Program.threads, List.getElem?_cons_zero, Option.some.injEq] at hk
    subst hk
    obtain ⟨x, _, h⟩ := List.mem_flatMap.1 hl
    exact .inl ⟨rfl, like_net h⟩
  | 1, hk =>
    simp only [Program.threads, List.getElem?_cons_succ, List.getElem?_cons_zero, Option.some.injEq] at hk
    subst hk
    obtain ⟨x, hx, h⟩ := List.mem_flatMap.1 hl
    refine .inr ⟨by simp, mono (like_main h) (fun h => .inl ⟨rfl, h⟩) fun i hi => ?_⟩
    simp only [elsewhere, List.mem_append, List.mem_flatMap]
    exact .inl (.inl (.inl ⟨x, hx, by cases x <;> exact hi⟩))
  | 2, hk =>
    simp only [Program.threads, List.getElem?_cons_succ, List.getElem?_cons_zero, Option.some.injEq] at hk
    subst hk
    obtain ⟨x, hx, h⟩ := List.mem_flatMap.1 hl
    refine .inr ⟨by simp, mono (like_timer h) (fun h => .inr (.inl ⟨rfl, _, h⟩)) fun i hi => ?_⟩
    simp only [elsewhere, List.mem_append, List.mem_flatMap]
    exact .inl (.inl (.inr ⟨x, hx, hi⟩))
  | 3, hk =>
    simp only [Program.threads, List.getElem?_cons_succ, List.getElem?_cons_zero, Option.some.injEq] at hk
    subst hk
    obtain ⟨x, hx, h⟩ := List.mem_flatMap.1 hl
    refine .inr ⟨by simp, .inr ?_⟩
    have := all_call (.synchronize true) l h
    refine ⟨this.1, fun s e => ?_⟩
    obtain ⟨m, f, h⟩ := this.2 s e
    cases h
  | k + 4, hk =>
    simp only [Program.threads, List.getElem?_cons_succ] at hk
    refine .inr ⟨by simp, ?_⟩
    rw [List.getElem?_append] at hk
    split at hk
    · rw [List.getElem?_map] at hk
      cases hrs : p.tasks[k]? with
      | none => rw [hrs] at hk; cases hk
      | some rs =>
        rw [hrs] at hk
        simp only [Option.map_some, Option.some.injEq] at hk
        subst hk
        obtain ⟨⟨i, x⟩, hx, h⟩ := List.mem_flatMap.1 hl
        refine mono (like_task h) ?_ fun j hj => ?_
        · rintro ⟨e, is, rfl⟩
          exact .inr (.inr ⟨by omega, rs, i, is, by simpa using hrs, hx, e⟩)
        · simp only [elsewhere, List.mem_append, List.mem_flatMap, List.mem_flatten]
          exact .inl (.inr ⟨(i, x), ⟨rs, List.mem_of_getElem? hrs, hx⟩, hj⟩)
    · rw [List.getElem?_map] at hk
      cases hrs : p.others[k - (p.tasks.map (fun rs => rs.flatMap fun x => taskRun x.1 x.2)).length]? with
      | none => rw [hrs] at hk; cases hk
      | some is =>
        rw [hrs] at hk
        simp only [Option.map_some, Option.some.injEq] at hk
        subst hk
        refine mono (like_items (p := fun _ => False) hl) (fun h => h.elim) fun j hj => ?_
        simp only [elsewhere, List.mem_append, List.mem_flatten]
        exact .inr ⟨is, List.mem_of_getElem? hrs, hj⟩

/-- No other thread sends compressed messages to the session. -/
def Lone (p : Program) (s : Nat) : Prop := ∀ i ∈ elsewhere p, ∀ m f, Call.sendCompressed s m f ∉ calls i

def locks (p : Program) (k : Nat) (l : Lock) : Prop := ∃ ops, p.threads[k]? = some ops ∧ acq l ∈ ops

theorem apart {p : Program} (ht : TasksApart p) : Apart (Lone p) (locks p) := by
  constructor
  · rintro l hp j k ⟨o, ho, hl⟩ ⟨o', ho', hl'⟩
    have like : ∀ k o, p.threads[k]? = some o → acq l ∈ o → (k = 0 ∧ l = .event) ∨ (k = 1 ∧ ∃ f, l = .fiber f) ∨ (k = 2 ∧ ∃ i, l = .timer i) ∨
        (4 ≤ k ∧ ∃ rs i is, p.tasks[k - 4]? = some rs ∧ (i, some is) ∈ rs ∧ l = .task i) := by
      intro k o ho hl
      rcases thread_like p k o ho l hl with ⟨h, h'⟩ | ⟨_, h | h⟩
      · exact .inl ⟨h, h' hp⟩
      · exact .inr h
      · simp [hp] at h
    rcases like j o ho hl with ⟨rfl, rfl⟩ | ⟨rfl, f, rfl⟩ | ⟨rfl, i, rfl⟩ | ⟨hj, rs, i, is, hrs, hi, rfl⟩ <;>
      rcases like k o' ho' hl' with ⟨rfl, e⟩ | ⟨rfl, f, e⟩ | ⟨rfl, i, e⟩ | ⟨hk, rs', i', is', hrs', hi', e⟩ <;>
      first | rfl | (simp at e; done) | skip
    cases e
    rcases Nat.lt_trichotomy (j - 4) (k - 4) with h | h | h
    · have := (List.pairwise_iff_getElem.1 ht) (j - 4) (k - 4) (List.getElem?_eq_some_iff.1 hrs).1 (List.getElem?_eq_some_iff.1 hrs').1 h
      rw [(List.getElem?_eq_some_iff.1 hrs).2, (List.getElem?_eq_some_iff.1 hrs').2] at this
      exact (this _ _ _ hi hi').elim
    · omega
    · have := (List.pairwise_iff_getElem.1 ht) (k - 4) (j - 4) (List.getElem?_eq_some_iff.1 hrs').1 (List.getElem?_eq_some_iff.1 hrs).1 h
      rw [(List.getElem?_eq_some_iff.1 hrs).2, (List.getElem?_eq_some_iff.1 hrs').2] at this
      exact (this _ _ _ hi' hi).elim
  · rintro s hz k ⟨o, ho, hl⟩
    rcases thread_like p _ o ho _ hl with ⟨h, _⟩ | ⟨_, (⟨_, _, h⟩ | ⟨_, _, h⟩ | ⟨_, _, _, _, _, _, h⟩) | ⟨_, h⟩⟩
    · omega
    · cases h
    · cases h
    · cases h
    · obtain ⟨i, hi, m, f, h⟩ := h s rfl
      exact hz i hi m f h

theorem start_get {p : Program} {k : Nat} {t : Thr} (h : p.start[k]? = some t) : ∃ ops, p.threads[k]? = some ops ∧ t = { rest := ops } := by
  unfold Program.start at h
  rw [List.getElem?_map] at h
  cases ho : p.threads[k]? with
  | none => rw [ho] at h; cases h
  | some o => rw [ho] at h; exact ⟨o, rfl, by simpa using h.symm⟩

theorem start_within (p : Program) : Within (locks p) p.start := by
  intro k t h
  obtain ⟨o, ho, rfl⟩ := start_get h
  exact ⟨by simp, fun l hl => ⟨o, ho, hl⟩⟩

theorem flat_all {α : Type} {f : α → List Op} {ok H} : ∀ {xs : List α}, (∀ x ∈ xs, ∀ r, Disc ok H r → Disc ok H (f x ++ r)) → ∀ {r}, Disc ok H r →
    Disc ok H (xs.flatMap f ++ r)
  | [], _, _, h => h
  | x :: xs, hf, r, h => by
    simp only [List.flatMap_cons, List.append_assoc]
    exact hf x (by simp) _ (flat_all (fun y hy => hf y (by simp [hy])) h)

theorem start_good {p : Program} (hc : CompressionApart p) : Good (Lone p) p.start := by
  have nil : ∀ ok, Disc ok [] [] := fun _ => rfl
  constructor
  · intro t h
    obtain ⟨o, ho, rfl⟩ := start_get h
    simp only [Program.threads, List.getElem?_cons_zero, Option.some.injEq] at ho
    subst ho
    have := flat_all (f := NetRun.ops) (xs := p.network) (ok := okN (Lone p)) (H := []) (fun x hx r h => net_disc h fun c s cs n e => ?_) (nil _)
    · simpa using this
    · subst e
      rcases hc s with h | h
      · exact .inl (h c cs n hx)
      · exact .inr h
  · intro k t h
    obtain ⟨o, ho, rfl⟩ := start_get h
    match k, ho with
    | 0, ho =>
      simp only [Program.threads, List.getElem?_cons_succ, List.getElem?_cons_zero, Option.some.injEq] at ho
      subst ho
      simpa using flat_all (f := MainRun.ops) (xs := p.main) (fun x _ r h => main_disc h) (nil okW)
    | 1, ho =>
      simp only [Program.threads, List.getElem?_cons_succ, List.getElem?_cons_zero, Option.some.injEq] at ho
      subst ho
      simpa using flat_all (f := fun x => timerRun x.1 x.2) (xs := p.timer) (fun x _ r h => timer_disc h) (nil okW)
    | 2, ho =>
      simp only [Program.threads, List.getElem?_cons_succ, List.getElem?_cons_zero, Option.some.injEq] at ho
      subst ho
      simpa using flat_all (f := fun _ => loggerRun) (xs := List.replicate p.logger ()) (fun x _ r h => logger_disc h) (nil okW)
    | k + 3, ho =>
      simp only [Program.threads, List.getElem?_cons_succ] at ho
      rcases List.mem_append.1 (List.mem_of_getElem? ho) with h | h
      · obtain ⟨rs, _, rfl⟩ := List.mem_map.1 h
        simpa using flat_all (f := fun x => taskRun x.1 x.2) (xs := rs) (fun x _ r h => task_disc h) (nil okW)
      · obtain ⟨is, _, rfl⟩ := List.mem_map.1 h
        simpa using items_disc (H := []) (by simp) (nil okW) is

end Verif.Locks
