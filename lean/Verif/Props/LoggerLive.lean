import Verif.Proofs.Live
import Verif.Spec.LoggerLive
import Verif.Props.Logger
/-!
# C127: what has been begun ends (the logger)
-/
namespace Verif.Props
open Verif.Logger Verif.Live

theorem ll_reachable {e : Exec Logger.step} {l : Nat} (h : Live e l) (n : Nat) : Logger.Reachable (e.st n) :=
  e.always 0 h.start (fun _ a _ hp hs => .step a hp hs) n (Nat.zero_le _)

/-- What is left to do for a thread that has messages in its hands. -/
def llWork : Logger.Pc → Nat
  | .reading _ _ todo => todo.length + 2
  | .writing _ _ _ todo => todo.length + 1
  | _ => 0

/-- Other threads do not change where a thread is. -/
theorem ll_pc {s s' : Logger.Sys} {a : Logger.Act} {t : Nat} (hs : Logger.step s a = some s') (ha : a ≠ .go t) (hp : s.pc t ≠ .idle) : s'.pc t = s.pc t := by
  cases a with
  | enqueue k =>
    simp only [Logger.step] at hs
    split at hs
    · cases hs; rfl
    · exact nomatch hs
  | call u m =>
    simp only [Logger.step] at hs
    split at hs
    · rename_i hu
      cases hs
      by_cases h : t = u
      · subst h; exact absurd hu hp
      · exact Logger.upd_other _ _ h
    · exact nomatch hs
  | go u =>
    have h : t ≠ u := fun h => ha (by rw [h])
    simp only [Logger.step, Logger.go] at hs
    split at hs
    · split at hs
      · cases hs; exact Logger.upd_other _ _ h
      · exact nomatch hs
    · split at hs
      · split at hs
        · cases hs; exact Logger.upd_other _ _ h
        · cases hs; exact Logger.upd_other _ _ h
      · exact nomatch hs
    · cases hs; exact Logger.upd_other _ _ h
    · cases hs; exact Logger.upd_other _ _ h
    · cases hs; exact Logger.upd_other _ _ h
    · exact nomatch hs
  | reload c =>
    simp only [Logger.step] at hs
    split at hs
    · cases hs; rfl
    · exact nomatch hs

/-- A thread that has messages in its hands goes on until it is idle; if it is in `synchronize()`, this returns then. -/
theorem ll_finish {e : Exec Logger.step} {l : Nat} (h : Live e l) (t : Nat) (md : Mode) (n : Nat) (hn : (∃ k todo, (e.st n).pc t = .reading md k todo) ∨ ∃ k lv todo, (e.st n).pc t = .writing md k lv todo) :
    ∃ m, n ≤ m ∧ (e.st m).pc t = .idle ∧ (e.st m).slock = none ∧ (md = .sync → (e.st m).trace.head? = some (.returned t)) := by
  refine e.leads_measure (P := fun s => (∃ k todo, s.pc t = .reading md k todo) ∨ ∃ k lv todo, s.pc t = .writing md k lv todo)
    (Q := fun s => s.pc t = .idle ∧ s.slock = none ∧ (md = .sync → s.trace.head? = some (.returned t))) (T := Goes t) (fun s => llWork (s.pc t)) (h.fair t) ?_ ?_ ?_ n hn
  · intro s a s' hp hs
    by_cases ha : a = .go t
    · subst ha
      simp only [Logger.step, Logger.go] at hs
      rcases hp with ⟨k, todo, hp⟩ | ⟨k, lv, todo, hp⟩
      · rw [hp] at hs
        cases hs
        refine .inl ⟨.inr ⟨k, s.levels, todo, by simp [Logger.upd]⟩, ?_⟩
        simp [Logger.upd, hp, llWork]
      · rw [hp] at hs
        cases todo with
        | nil =>
          cases hs
          exact .inr ⟨by simp [Logger.upd], rfl, fun e => by simp [Logger.ret, e]⟩
        | cons msg todo =>
          cases hs
          refine .inl ⟨.inr ⟨k, lv, todo, by simp [Logger.upd]⟩, ?_⟩
          simp [Logger.upd, hp, llWork]
    · have hi : s.pc t ≠ .idle := by rcases hp with ⟨k, todo, hp⟩ | ⟨k, lv, todo, hp⟩ <;> simp [hp]
      have := ll_pc hs ha hi
      rw [this]
      exact .inl ⟨hp, Nat.le_refl _⟩
  · intro s hp
    refine ⟨.go t, rfl, ?_⟩
    rcases hp with ⟨k, todo, hp⟩ | ⟨k, lv, todo, hp⟩
    · simp [Logger.step, Logger.go, hp]
    · cases todo <;> simp [Logger.step, Logger.go, hp]
  · intro s a s' hp ha hs
    cases ha
    simp only [Logger.step, Logger.go] at hs
    rcases hp with ⟨k, todo, hp⟩ | ⟨k, lv, todo, hp⟩
    · rw [hp] at hs
      cases hs
      refine .inl ⟨.inr ⟨k, s.levels, todo, by simp [Logger.upd]⟩, ?_⟩
      simp [Logger.upd, hp, llWork]
    · rw [hp] at hs
      cases todo with
      | nil =>
        cases hs
        exact .inr ⟨by simp [Logger.upd], rfl, fun e => by simp [Logger.ret, e]⟩
      | cons msg todo =>
        cases hs
        refine .inl ⟨.inr ⟨k, lv, todo, by simp [Logger.upd]⟩, ?_⟩
        simp [Logger.upd, hp, llWork]

/-- The mutex for writing is free again and again. -/
theorem ll_slock {e : Exec Logger.step} {l : Nat} (h : Live e l) (n : Nat) : ∃ m, n ≤ m ∧ (e.st m).slock = none := by
  cases hs : (e.st n).slock with
  | none => exact ⟨n, Nat.le_refl _, hs⟩
  | some t =>
    have := ((Logger.inv (ll_reachable h n)).slock t).1 hs
    cases hp : (e.st n).pc t with
    | reading md k todo =>
      obtain ⟨m, h1, -, h2, -⟩ := ll_finish h t md n (.inl ⟨k, todo, hp⟩)
      exact ⟨m, h1, h2⟩
    | writing md k lv todo =>
      obtain ⟨m, h1, -, h2, -⟩ := ll_finish h t md n (.inr ⟨k, lv, todo, hp⟩)
      exact ⟨m, h1, h2⟩
    | _ => rw [hp] at this; exact nomatch this

/-- A thread that is about to take the messages does so. -/
theorem ll_locking {e : Exec Logger.step} {l : Nat} (h : Live e l) (t : Nat) (md : Mode) (n : Nat) (hn : (e.st n).pc t = .locking md) :
    ∃ m, n ≤ m ∧ (e.st m).qlock = none ∧ (e.st m).queue = [] ∧ ((∃ k todo, (e.st m).pc t = .reading md k todo) ∨ (md = .sync ∧ (e.st m).pc t = .idle ∧ (e.st m).trace.head? = some (.returned t))) := by
  have prog : ∀ s a s', Logger.Sys.pc s t = .locking md → Goes t a → Logger.step s a = some s' →
      s'.qlock = none ∧ s'.queue = [] ∧ ((∃ k todo, s'.pc t = .reading md k todo) ∨ (md = .sync ∧ s'.pc t = .idle ∧ s'.trace.head? = some (.returned t))) := by
    intro s a s' hp ha hs
    cases ha
    simp only [Logger.step, Logger.go, hp] at hs
    split at hs
    · split at hs
      · rename_i hq
        cases hs
        exact ⟨rfl, hq.2, .inr ⟨hq.1, by simp [Logger.upd], by simp [Logger.ret, hq.1]⟩⟩
      · cases hs
        exact ⟨rfl, rfl, .inl ⟨_, _, by simp [Logger.upd]; exact ⟨rfl, rfl⟩⟩⟩
    · exact nomatch hs
  refine e.leads (P := fun s => s.pc t = .locking md) (T := Goes t) (h.fair t) n hn ?_ ?_ prog
  · intro s a s' hp hs
    by_cases ha : a = .go t
    · exact .inr (prog s a s' hp ha hs)
    · exact .inl (by rw [ll_pc hs ha (by simp [hp])]; exact hp)
  · intro m hm _
    -- while the thread waits for the mutex, it stays where it is, until it can go on
    apply Classical.byContradiction
    intro hno
    have hstay : ∀ k, m ≤ k → (e.st k).pc t = .locking md := by
      intro k hk
      induction k with
      | zero => have : m = 0 := by omega
                subst this; assumption
      | succ k ih =>
        by_cases h' : m = k + 1
        · subst h'; assumption
        · have ih := ih (by omega)
          have := e.ok k
          split at this
          · rw [this]; exact ih
          · rename_i a _
            by_cases ha : a = .go t
            · exact absurd ⟨k + 1, by omega, .inr (prog _ a _ ih ha this)⟩ hno
            · rw [ll_pc this ha (by simp [ih])]; exact ih
    obtain ⟨k, hk, hs⟩ := ll_slock h m
    refine hno ⟨k, hk, .inl ⟨.go t, rfl, ?_⟩⟩
    simp only [Logger.step, Logger.go, hstay k hk, hs, if_true]
    split <;> rfl

/-- The mutex of the queue is free again and again. -/
theorem ll_qlock {e : Exec Logger.step} {l : Nat} (h : Live e l) (n : Nat) : ∃ m, n ≤ m ∧ (e.st m).qlock = none := by
  cases hs : (e.st n).qlock with
  | none => exact ⟨n, Nat.le_refl _, hs⟩
  | some t =>
    have := ((Logger.inv (ll_reachable h n)).qlock t).1 hs
    cases hp : (e.st n).pc t with
    | locking md =>
      obtain ⟨m, h1, h2, -⟩ := ll_locking h t md n hp
      exact ⟨m, h1, h2⟩
    | _ => rw [hp] at this; exact nomatch this

/-- A thread that has come to the queue takes its mutex, if there are messages whenever it is free or the thread is in `synchronize()`. -/
theorem ll_entering {e : Exec Logger.step} {l : Nat} (h : Live e l) (t : Nat) (md : Mode) (n : Nat) (hn : (e.st n).pc t = .entering md) (hq : md = .loop → ∀ m, n ≤ m → (e.st m).queue ≠ []) :
    ∃ m, n ≤ m ∧ (e.st m).pc t = .locking md := by
  have prog : ∀ s a s', Logger.Sys.pc s t = .entering md → Goes t a → Logger.step s a = some s' → s'.pc t = .locking md := by
    intro s a s' hp ha hs
    cases ha
    simp only [Logger.step, Logger.go, hp] at hs
    split at hs
    · cases hs; simp [Logger.upd]
    · exact nomatch hs
  refine e.leads (P := fun s => s.pc t = .entering md) (T := Goes t) (h.fair t) n hn ?_ ?_ prog
  · intro s a s' hp hs
    by_cases ha : a = .go t
    · exact .inr (prog s a s' hp ha hs)
    · exact .inl (by rw [ll_pc hs ha (by simp [hp])]; exact hp)
  · intro m hm _
    apply Classical.byContradiction
    intro hno
    have hstay : ∀ k, m ≤ k → (e.st k).pc t = .entering md := by
      intro k hk
      induction k with
      | zero => have : m = 0 := by omega
                subst this; assumption
      | succ k ih =>
        by_cases h' : m = k + 1
        · subst h'; assumption
        · have ih := ih (by omega)
          have := e.ok k
          split at this
          · rw [this]; exact ih
          · rename_i a _
            by_cases ha : a = .go t
            · exact absurd ⟨k + 1, by omega, .inr (prog _ a _ ih ha this)⟩ hno
            · rw [ll_pc this ha (by simp [ih])]; exact ih
    obtain ⟨k, hk, hs⟩ := ll_qlock h m
    refine hno ⟨k, hk, .inl ⟨.go t, rfl, ?_⟩⟩
    have hc : (e.st k).qlock = none ∧ (md = .loop → (e.st k).queue ≠ []) := ⟨hs, fun e' => hq e' k (by omega)⟩
    simp only [Logger.step, Logger.go, hstay k hk, if_pos hc]
    rfl

/-- C127: `synchronize()` returns, whatever other threads do. -/
theorem C127_synchronize (e : Exec Logger.step) (l : Nat) (h : Live e l) (t n : Nat) (hn : (e.st n).pc t = .entering .sync) :
    ∃ m, n ≤ m ∧ (e.st m).pc t = .idle ∧ (e.st m).trace.head? = some (.returned t) := by
  obtain ⟨m1, h1, hp1⟩ := ll_entering h t .sync n hn (fun e' => nomatch e')
  obtain ⟨m2, h2, -, -, h3⟩ := ll_locking h t .sync m1 hp1
  rcases h3 with ⟨k, todo, hp⟩ | ⟨-, hp, hr⟩
  · obtain ⟨m3, h4, h5, -, h6⟩ := ll_finish h t .sync m2 (.inl ⟨k, todo, hp⟩)
    exact ⟨m3, by omega, h5, h6 rfl⟩
  · exact ⟨m2, by omega, hp, hr⟩

/-- A message that has left the queue does not return. -/
theorem ll_gone {e : Exec Logger.step} {l : Nat} (h : Live e l) (id n : Nat) (hi : id ∈ Logger.enqueued (e.st n).trace) (hq : id ∉ Logger.ids (e.st n).queue) :
    ∀ m, n ≤ m → id ∈ Logger.enqueued (e.st m).trace ∧ id ∉ Logger.ids (e.st m).queue := by
  intro m hm
  refine (e.always (P := fun s => Logger.Reachable s ∧ id ∈ Logger.enqueued s.trace ∧ id ∉ Logger.ids s.queue) n ⟨ll_reachable h n, hi, hq⟩ (fun s a s' ⟨hr, h1, h2⟩ hs => ⟨.step a hr hs, ?_⟩) m hm).2
  have ret : ∀ t md, id ∈ Logger.enqueued (Logger.ret s t md) := by
    intro t md; unfold Logger.ret; split
    · exact h1
    · exact h1
  cases a with
  | enqueue k =>
    simp only [Logger.step] at hs
    split at hs
    · cases hs
      have := (Logger.inv hr).fresh id h1
      refine ⟨by simp [Logger.enqueued, h1], ?_⟩
      simp only [Logger.ids, List.map_append, List.map_cons, List.map_nil, List.mem_append, List.mem_singleton, not_or]
      exact ⟨h2, by omega⟩
    · exact nomatch hs
  | call u m =>
    simp only [Logger.step] at hs
    split at hs
    · cases hs
      refine ⟨?_, h2⟩
      dsimp only; split
      · exact h1
      · exact h1
    · exact nomatch hs
  | go u =>
    simp only [Logger.step, Logger.go] at hs
    split at hs
    · split at hs
      · cases hs; exact ⟨h1, h2⟩
      · exact nomatch hs
    · split at hs
      · split at hs
        · cases hs; exact ⟨ret _ _, h2⟩
        · cases hs; exact ⟨h1, by simp [Logger.ids]⟩
      · exact nomatch hs
    · cases hs; exact ⟨h1, h2⟩
    · rename_i md k lv msg todo _
      cases hs
      refine ⟨?_, h2⟩
      rcases Logger.handle_cases md k lv msg with e' | e'
      · rw [e']; exact h1
      · rw [e'.1]; exact h1
    · cases hs; exact ⟨ret _ _, h2⟩
    · exact nomatch hs
  | reload c =>
    simp only [Logger.step] at hs
    split at hs
    · cases hs; exact ⟨h1, h2⟩
    · exact nomatch hs

/-- The logger thread comes back to the queue. -/
theorem ll_back {e : Exec Logger.step} {l : Nat} (h : Live e l) (n : Nat) : ∃ m, n ≤ m ∧ ((∃ md, (e.st m).pc l = .entering md) ∨ ∃ md, (e.st m).pc l = .locking md) := by
  have idle : ∀ n, (e.st n).pc l = .idle → ∃ m, n ≤ m ∧ ((∃ md, (e.st m).pc l = .entering md) ∨ ∃ md, (e.st m).pc l = .locking md) := by
    intro n hn
    obtain ⟨m, hm, ha⟩ := h.loop n hn
    have := e.ok m
    rw [ha] at this
    simp only [Logger.step] at this
    split at this
    · simp only [Option.some.injEq] at this
      exact ⟨m + 1, by omega, .inl ⟨.loop, by rw [← this]; simp [Logger.upd]⟩⟩
    · exact nomatch this
  cases hp : (e.st n).pc l with
  | idle => exact idle n hp
  | entering md => exact ⟨n, Nat.le_refl _, .inl ⟨md, hp⟩⟩
  | locking md => exact ⟨n, Nat.le_refl _, .inr ⟨md, hp⟩⟩
  | reading md k todo =>
    obtain ⟨m, h1, h2, -⟩ := ll_finish h l md n (.inl ⟨k, todo, hp⟩)
    obtain ⟨m', h3, h4⟩ := idle m h2
    exact ⟨m', by omega, h4⟩
  | writing md k lv todo =>
    obtain ⟨m, h1, h2, -⟩ := ll_finish h l md n (.inr ⟨k, lv, todo, hp⟩)
    obtain ⟨m', h3, h4⟩ := idle m h2
    exact ⟨m', by omega, h4⟩

/-- C127: every message that is enqueued is eventually written or ignored. -/
theorem C127_logged (e : Exec Logger.step) (l : Nat) (h : Live e l) (n id : Nat) (hn : id ∈ Logger.enqueued (e.st n).trace) : ∃ m, n ≤ m ∧ id ∈ Logger.handled (e.st m).trace := by
  have hout : ∃ m, n ≤ m ∧ id ∈ Logger.enqueued (e.st m).trace ∧ id ∉ Logger.ids (e.st m).queue := by
    by_cases hq : id ∈ Logger.ids (e.st n).queue
    · -- otherwise it would stay in the queue for ever
      apply Classical.byContradiction
      intro hno
      have hall : ∀ m, n ≤ m → id ∈ Logger.enqueued (e.st m).trace ∧ id ∈ Logger.ids (e.st m).queue := by
        intro m hm
        have henq : id ∈ Logger.enqueued (e.st m).trace := by
          clear hno hq
          induction m with
          | zero => have : n = 0 := by omega
                    subst this; exact hn
          | succ m ih =>
            by_cases h' : n = m + 1
            · subst h'; exact hn
            · have ih := ih (by omega)
              by_cases hq' : id ∈ Logger.ids (e.st m).queue
              · have := e.ok m
                split at this
                · rw [this]; exact ih
                · rename_i a _
                  have hr : Logger.Reachable (e.st (m + 1)) := ll_reachable h (m + 1)
                  -- the history only grows
                  have grow : ∀ s a s', Logger.step s a = some s' → id ∈ Logger.enqueued s.trace → id ∈ Logger.enqueued s'.trace := by
                    intro s a s' hs h1
                    have ret : ∀ t md, id ∈ Logger.enqueued (Logger.ret s t md) := by
                      intro t md; unfold Logger.ret; split
                      · exact h1
                      · exact h1
                    cases a with
                    | enqueue k =>
                      simp only [Logger.step] at hs
                      split at hs
                      · cases hs; simp [Logger.enqueued, h1]
                      · exact nomatch hs
                    | call u m =>
                      simp only [Logger.step] at hs
                      split at hs
                      · cases hs; dsimp only; split
                        · exact h1
                        · exact h1
                      · exact nomatch hs
                    | go u =>
                      simp only [Logger.step, Logger.go] at hs
                      split at hs
                      · split at hs
                        · cases hs; exact h1
                        · exact nomatch hs
                      · split at hs
                        · split at hs
                          · cases hs; exact ret _ _
                          · cases hs; exact h1
                        · exact nomatch hs
                      · cases hs; exact h1
                      · rename_i md k lv msg todo _
                        cases hs
                        rcases Logger.handle_cases md k lv msg with e' | e'
                        · rw [e']; exact h1
                        · rw [e'.1]; exact h1
                      · cases hs; exact ret _ _
                      · exact nomatch hs
                    | reload c =>
                      simp only [Logger.step] at hs
                      split at hs
                      · cases hs; exact h1
                      · exact nomatch hs
                  exact grow _ a _ this ih
              · exact (ll_gone h id m ih hq' (m + 1) (by omega)).1
        exact ⟨henq, Classical.byContradiction fun hq' => hno ⟨m, hm, henq, hq'⟩⟩
      have hne : ∀ m, n ≤ m → (e.st m).queue ≠ [] := fun m hm h0 => by
        have := (hall m hm).2
        rw [h0] at this
        exact nomatch this
      have lock : ∀ m md, n ≤ m → (e.st m).pc l = .locking md → False := by
        intro m md hm hp
        obtain ⟨m', h1, -, h2, -⟩ := ll_locking h l md m hp
        exact hne m' (by omega) h2
      obtain ⟨m, hm, ⟨md, hp⟩ | ⟨md, hp⟩⟩ := ll_back h n
      · obtain ⟨m', h1, h2⟩ := ll_entering h l md m hp (fun _ k hk => hne k (by omega))
        exact lock m' md (by omega) h2
      · exact lock m md hm hp
    · exact ⟨n, Nat.le_refl _, hn, hq⟩
  obtain ⟨m, hm, h1, h2⟩ := hout
  obtain ⟨m', hm', hs⟩ := ll_slock h m
  obtain ⟨h3, h4⟩ := ll_gone h id m h1 h2 m' hm'
  have := (Logger.inv (ll_reachable h m')).order
  rw [this] at h3
  simp only [Logger.flight, hs, List.mem_append] at h3
  rcases h3 with (h3 | h3) | h3
  · exact ⟨m', by omega, h3⟩
  · exact nomatch h3
  · exact absurd h3 h4

/-- C127: a message whose level exists and is not expendable in any configuration that is ever loaded is eventually written. -/
theorem C127_written (e : Exec Logger.step) (l : Nat) (h : Live e l) (n id k : Nat) (hn : .enqueued id k ∈ (e.st n).trace) (hk : ∀ m lv, .loaded lv ∈ (e.st m).trace → lv[k]? = some false) :
    ∃ m, n ≤ m ∧ .written id ∈ (e.st m).trace := by
  have mem : ∀ (tr : List Logger.Ev), Logger.Ev.enqueued id k ∈ tr → id ∈ Logger.enqueued tr := by
    intro tr
    induction tr with
    | nil => intro h; exact nomatch h
    | cons x tr ih =>
      intro h
      rcases List.mem_cons.1 h with rfl | h
      · simp [Logger.enqueued]
      · have := ih h
        cases x with
        | enqueued i k => exact List.mem_append_left _ this
        | _ => exact this
  have grow : ∀ m, n ≤ m → Logger.Ev.enqueued id k ∈ (e.st m).trace := by
    refine e.always (P := fun s => Logger.Ev.enqueued id k ∈ s.trace) n hn fun s a s' h1 hs => ?_
    have ret : ∀ t md, Logger.Ev.enqueued id k ∈ Logger.ret s t md := by
      intro t md; unfold Logger.ret; split
      · exact .tail _ h1
      · exact h1
    cases a with
    | enqueue k =>
      simp only [Logger.step] at hs
      split at hs
      · cases hs; exact .tail _ h1
      · exact nomatch hs
    | call u m =>
      simp only [Logger.step] at hs
      split at hs
      · cases hs; dsimp only; split
        · exact .tail _ h1
        · exact h1
      · exact nomatch hs
    | go u =>
      simp only [Logger.step, Logger.go] at hs
      split at hs
      · split at hs
        · cases hs; exact h1
        · exact nomatch hs
      · split at hs
        · split at hs
          · cases hs; exact ret _ _
          · cases hs; exact h1
        · exact nomatch hs
      · cases hs; exact h1
      · cases hs; exact .tail _ h1
      · cases hs; exact ret _ _
      · exact nomatch hs
    | reload c =>
      simp only [Logger.step] at hs
      split at hs
      · cases hs; exact .tail _ h1
      · exact nomatch hs
  obtain ⟨m, hm, h1⟩ := C127_logged e l h n id (mem _ hn)
  refine ⟨m, hm, ?_⟩
  rcases mem_handled id _ h1 with hw | ⟨j, hd⟩
  · exact hw
  · obtain ⟨h2, lv, h3, h4⟩ := C51_dropped _ (ll_reachable h m) id j hd
    cases enqueued_level _ (ll_reachable h m) id k j (grow m hm) h2
    have := hk m lv h3
    rcases h4 with h4 | h4
    · rw [List.getElem?_eq_none_iff.2 h4] at this; exact nomatch this
    · rw [h4.1] at this; exact nomatch this

/-- Thread 0 is the logger thread; thread 1 calls `synchronize()` and has to wait. -/
def loggerLiveDemo : List Logger.Act :=
  [.call 0 .loop, .enqueue 0, .call 1 .sync, .go 0, .go 0, .go 1, .go 0, .go 0, .go 0, .go 1, .call 0 .loop]

theorem loggerLive_some : (runs Logger.step { levels := [false], trace := [.loaded [false]] } loggerLiveDemo).isSome = true := rfl

/-- Non-vacuity: an execution that is fair for ever; in the end the logger thread waits for messages. -/
example : ∃ e : Exec Logger.step, Live e 0 ∧ .enqueued 0 0 ∈ (e.st 2).trace ∧ (e.st 3).pc 1 = .entering .sync ∧ .written 0 ∈ (e.st 11).trace ∧ .returned 1 ∈ (e.st 11).trace := by
  refine ⟨Exec.ofRun _ loggerLiveDemo loggerLive_some, ⟨.init [false], fun t n hen => ?_, fun n hi => ?_⟩, by decide, by decide, by decide, by decide⟩
  · exfalso
    obtain ⟨k, hk, a, ha, hs⟩ := hen (n + 11) (by omega)
    cases ha
    have e := Exec.ofRun_end (step := Logger.step) _ loggerLiveDemo loggerLive_some k (by simp [loggerLiveDemo]; omega)
    have e2 : runs Logger.step { levels := [false], trace := [.loaded [false]] } loggerLiveDemo = some _ := rfl
    rw [e2] at e
    rw [Option.some.inj e] at hs
    by_cases h0 : t = 0
    · subst h0; exact nomatch hs
    · by_cases h1 : t = 1
      · subst h1; exact nomatch hs
      · simp [Logger.step, Logger.go, Logger.upd, h0, h1] at hs
  · by_cases hn : n ≤ 10
    · exact ⟨10, hn, rfl⟩
    · exfalso
      have e := Exec.ofRun_end (step := Logger.step) _ loggerLiveDemo loggerLive_some n (by simp [loggerLiveDemo]; omega)
      have e2 : runs Logger.step { levels := [false], trace := [.loaded [false]] } loggerLiveDemo = some _ := rfl
      rw [e2] at e
      rw [Option.some.inj e] at hi
      exact nomatch hi

end Verif.Props
