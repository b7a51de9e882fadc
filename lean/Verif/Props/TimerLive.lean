import Verif.Proofs.Live
import Verif.Spec.TimerLive
import Verif.Props.Timer
/-!
# C127: timers fire
-/
namespace Verif.Props
open Verif.Timer Verif.Live

theorem ml_reach {e : Exec Timer.step} (hl : Timer.Live e) (n : Nat) : Timer.Reachable (e.st n) :=
  e.always (P := Timer.Reachable) 0 hl.start (fun _ a _ h hs => .step a h hs) n (Nat.zero_le _)

theorem ml_period {s} (h : Timer.Reachable s) : ∀ x ∈ s.pq, 0 ≤ x.period := by
  induction h with
  | init => exact nofun
  | @step s s' a hr hs ih =>
    cases a with
    | pass d =>
      simp only [Timer.step] at hs
      split at hs
      · cases hs; exact ih
      · exact nomatch hs
    | release t => cases hs; exact ih
    | insert timer delay period ago =>
      simp only [Timer.step] at hs
      split at hs
      · exact nomatch hs
      split at hs
      · exact nomatch hs
      split at hs
      · cases hs; exact ih
      split at hs
      · cases hs; exact ih
      rename_i hp
      cases hs
      intro x hx
      rcases List.mem_append.1 hx with hx | hx
      · exact ih x hx
      · rw [List.mem_singleton.1 hx]; show 0 ≤ period; omega
    | loop k =>
      simp only [Timer.step] at hs
      split at hs
      · exact nomatch hs
      split at hs
      · exact nomatch hs
      rename_i x he
      split at hs
      · split at hs
        · cases hs; exact ih
        split at hs
        · cases hs; exact fun y hy => ih y (erase_mem hy)
        split at hs
        · cases hs
          intro y hy
          rcases List.mem_append.1 hy with hy | hy
          · exact ih y (erase_mem hy)
          · rw [List.mem_singleton.1 hy]; exact ih x (List.mem_of_getElem? he)
        · cases hs; exact fun y hy => ih y (erase_mem hy)
      · exact nomatch hs
    | call =>
      simp only [Timer.step] at hs
      split at hs
      · exact nomatch hs
      · cases hs; exact ih

theorem ml_clock {s a s'} (h : Timer.step s a = some s') : s.clock ≤ s'.clock := by
  cases a with
  | pass d =>
    simp only [Timer.step] at h
    split at h
    · cases h; show s.clock ≤ s.clock + d; omega
    · exact nomatch h
  | release t => cases h; exact Int.le_refl _
  | insert timer delay period ago =>
    simp only [Timer.step] at h
    split at h
    · exact nomatch h
    split at h
    · exact nomatch h
    split at h
    · cases h; exact Int.le_refl _
    split at h <;> (cases h; exact Int.le_refl _)
  | loop k =>
    simp only [Timer.step] at h
    split at h
    · exact nomatch h
    split at h
    · exact nomatch h
    split at h
    · split at h
      · cases h; exact Int.le_refl _
      split at h
      · cases h; exact Int.le_refl _
      split at h <;> (cases h; exact Int.le_refl _)
    · exact nomatch h
  | call =>
    simp only [Timer.step] at h
    split at h
    · exact nomatch h
    · cases h; exact Int.le_refl _

/-- An element for which no other has an earlier time. -/
theorem ml_least (l : List Entry) (hl : l ≠ []) : ∃ (k : Nat) (e : Entry), l[k]? = some e ∧ least l e = true := by
  induction l with
  | nil => exact absurd rfl hl
  | cons x l ih =>
    by_cases h : l = []
    · subst h; exact ⟨0, x, rfl, by simp [least]⟩
    · obtain ⟨k, e, h1, h2⟩ := ih h
      by_cases hx : x.next ≤ e.next
      · refine ⟨0, x, rfl, List.all_eq_true.2 fun y hy => decide_eq_true ?_⟩
        rcases List.mem_cons.1 hy with rfl | hy
        · exact Int.le_refl _
        · have := of_decide_eq_true (List.all_eq_true.1 h2 y hy); omega
      · refine ⟨k + 1, e, h1, List.all_eq_true.2 fun y hy => decide_eq_true ?_⟩
        rcases List.mem_cons.1 hy with rfl | hy
        · omega
        · exact of_decide_eq_true (List.all_eq_true.1 h2 y hy)

theorem ml_erase (w : Entry → Nat) (l : List Entry) (k : Nat) (e : Entry) (h : l[k]? = some e) : (l.map w).sum = w e + ((l.eraseIdx k).map w).sum := by
  induction l generalizing k with
  | nil => simp at h
  | cons x l ih =>
    cases k with
    | zero => simp at h; subst h; simp
    | succ k => simp at h; simp [ih k h]; omega

theorem ml_keep (l : List Entry) (k : Nat) (e x : Entry) (h : l[k]? = some e) (hx : x ∈ l) (hne : x ≠ e) : x ∈ l.eraseIdx k := by
  induction l generalizing k with
  | nil => simp at h
  | cons y l ih =>
    cases k with
    | zero =>
      simp at h; subst h
      rcases List.mem_cons.1 hx with rfl | hx
      · exact absurd rfl hne
      · exact hx
    | succ k =>
      simp at h
      rcases List.mem_cons.1 hx with rfl | hx
      · exact List.mem_cons_self ..
      · exact List.mem_cons_of_mem _ (ih k h hx)

/-- How often an element can be taken before an element of time `T`. -/
def mlWeight (T : Int) (x : Entry) : Nat := if T < x.next then 0 else if x.period = 0 then 1 else ((T - x.next) / x.period).toNat + 1

theorem ml_weight (T : Int) (x : Entry) (h : x.next ≤ T) : 1 ≤ mlWeight T x := by
  unfold mlWeight
  rw [if_neg (by omega)]
  split <;> omega

theorem ml_weight_next (T : Int) (x : Entry) (h : x.next ≤ T) (hp : 0 < x.period) : mlWeight T { x with next := x.next + x.period } < mlWeight T x := by
  unfold mlWeight
  dsimp only
  rw [if_neg (show ¬ T < x.next by omega), if_neg (show ¬ x.period = 0 by omega), if_neg (show ¬ x.period = 0 by omega)]
  split
  · omega
  · rename_i h1
    have e : (T - x.next) / x.period = (T - (x.next + x.period)) / x.period + 1 := by
      rw [show T - x.next = (T - (x.next + x.period)) + 1 * x.period by omega, Int.add_mul_ediv_right _ _ (by omega)]
    have : 0 ≤ (T - (x.next + x.period)) / x.period := Int.ediv_nonneg (by omega) (by omega)
    omega

/-- What becomes of an element in one step. -/
theorem ml_step {s a s'} (hr : Timer.Reachable s) (h : Timer.step s a = some s') (x : Entry) (hx : x ∈ s.pq) (hd : x.timer ∉ s.dead) :
    x ∈ s'.pq ∨ (takes x.id s'.trace).length = (takes x.id s.trace).length + 1 := by
  cases a with
  | pass d =>
    simp only [Timer.step] at h
    split at h
    · cases h; exact .inl hx
    · exact nomatch h
  | release t => cases h; exact .inl hx
  | insert timer delay period ago =>
    simp only [Timer.step] at h
    split at h
    · exact nomatch h
    split at h
    · exact nomatch h
    split at h
    · cases h; exact .inl hx
    split at h
    · cases h; exact .inl hx
    · cases h; exact .inl (List.mem_append_left _ hx)
  | loop k =>
    simp only [Timer.step] at h
    split at h
    · exact nomatch h
    split at h
    · exact nomatch h
    rename_i e he
    split at h
    · split at h
      · cases h; exact .inl hx
      have htk : ∀ id, takes id (.taken e.id e.timer e.next s.clock :: s.trace) = if e.id = id then takes id s.trace ++ [e.next] else takes id s.trace := fun _ => rfl
      by_cases hxe : x = e
      · subst hxe
        right
        split at h
        · contradiction
        split at h
        · cases h; rw [htk, if_pos rfl]; simp
        · cases h; rw [htk, if_pos rfl]; simp
      · have := ml_keep _ k e x he hx hxe
        split at h
        · cases h; exact .inl this
        split at h
        · cases h; exact .inl (List.mem_append_left _ this)
        · cases h; exact .inl this
    · exact nomatch h
  | call =>
    simp only [Timer.step] at h
    split at h
    · exact nomatch h
    · cases h; exact .inl hx

/-- Elements before a time become fewer. -/
theorem ml_fewer {s a s'} (hr : Timer.Reachable s) (h : Timer.step s a = some s') (x : Entry) (hx : x ∈ s.pq) (hc : x.next ≤ s.clock)
    (hp : ∀ timer delay period ago, a = .insert timer delay period ago → x.next < s.clock - ago) :
    (s'.pq.map (mlWeight x.next)).sum ≤ (s.pq.map (mlWeight x.next)).sum ∧ (Loops a → (s'.pq.map (mlWeight x.next)).sum < (s.pq.map (mlWeight x.next)).sum) := by
  cases a with
  | pass d =>
    simp only [Timer.step] at h
    split at h
    · cases h; exact ⟨Nat.le_refl _, fun ⟨_, h⟩ => nomatch h⟩
    · exact nomatch h
  | release t => cases h; exact ⟨Nat.le_refl _, fun ⟨_, h⟩ => nomatch h⟩
  | insert timer delay period ago =>
    refine ⟨?_, fun ⟨_, h⟩ => nomatch h⟩
    have := hp _ _ _ _ rfl
    simp only [Timer.step] at h
    split at h
    · exact nomatch h
    split at h
    · exact nomatch h
    split at h
    · cases h; exact Nat.le_refl _
    split at h
    · cases h; exact Nat.le_refl _
    · cases h
      simp only [List.map_append, List.sum_append, List.map_cons, List.map_nil, List.sum_cons, List.sum_nil, mlWeight]
      rw [if_pos (by omega)]; omega
  | loop k =>
    suffices h' : (s'.pq.map (mlWeight x.next)).sum < (s.pq.map (mlWeight x.next)).sum from ⟨Nat.le_of_lt h', fun _ => h'⟩
    simp only [Timer.step] at h
    split at h
    · exact nomatch h
    split at h
    · exact nomatch h
    rename_i e he
    have hper := ml_period hr e (List.mem_of_getElem? he)
    split at h
    · rename_i hleast
      have hle : e.next ≤ x.next := of_decide_eq_true (List.all_eq_true.1 hleast x hx)
      have h1 := ml_weight x.next e hle
      have h2 := ml_erase (mlWeight x.next) s.pq k e he
      split at h
      · omega
      split at h
      · cases h; dsimp only; omega
      split at h
      · cases h
        have := ml_weight_next x.next e hle (by omega)
        simp only [List.map_append, List.sum_append, List.map_cons, List.map_nil, List.sum_cons, List.sum_nil]
        omega
      · cases h; dsimp only; omega
    · exact nomatch h
  | call =>
    simp only [Timer.step] at h
    split at h
    · exact nomatch h
    · cases h; exact ⟨Nat.le_refl _, fun ⟨_, h⟩ => nomatch h⟩

/-- The timer thread calls the callback that it is about to call. -/
theorem ml_none {e : Exec Timer.step} (hl : Timer.Live e) (n : Nat) : ∃ m, n ≤ m ∧ (e.st m).current = none := by
  cases hc : (e.st n).current with
  | none => exact ⟨n, Nat.le_refl _, hc⟩
  | some x =>
    refine e.leads (P := fun s => s.current = some x) (Q := fun s => s.current = none) hl.call n hc (fun s a s' hp h => ?_)
      (fun m _ hp => ⟨m, Nat.le_refl _, .inl ⟨_, rfl, by simp only [Timer.step, hp]; rfl⟩⟩) (fun s a s' hp ha h => ?_)
    · cases a with
      | pass d =>
        simp only [Timer.step] at h
        split at h
        · cases h; exact .inl hp
        · exact nomatch h
      | release t => cases h; exact .inl hp
      | insert timer delay period ago =>
        simp only [Timer.step] at h
        split at h
        · exact nomatch h
        split at h
        · exact nomatch h
        split at h
        · cases h; exact .inl hp
        split at h <;> (cases h; exact .inl hp)
      | loop k => simp [Timer.step, hp] at h
      | call => simp only [Timer.step, hp] at h; cases h; exact .inr rfl
    · subst ha; simp only [Timer.step, hp] at h; cases h; rfl

/-- Histories only grow. -/
theorem ml_grow {s a s'} (h : Timer.step s a = some s') : s'.trace = s.trace ∨ ∃ x, s'.trace = x :: s.trace := by
  cases a with
  | pass d =>
    simp only [Timer.step] at h
    split at h
    · cases h; exact .inl rfl
    · exact nomatch h
  | release t => cases h; exact .inr ⟨_, rfl⟩
  | insert timer delay period ago =>
    simp only [Timer.step] at h
    split at h
    · exact nomatch h
    split at h
    · exact nomatch h
    split at h
    · cases h; exact .inl rfl
    split at h
    · cases h; exact .inl rfl
    · cases h; exact .inr ⟨_, rfl⟩
  | loop k =>
    simp only [Timer.step] at h
    split at h
    · exact nomatch h
    split at h
    · exact nomatch h
    split at h
    · split at h
      · cases h; exact .inl rfl
      split at h
      · cases h; exact .inl rfl
      split at h <;> (cases h; exact .inr ⟨_, rfl⟩)
    · exact nomatch h
  | call =>
    simp only [Timer.step] at h
    split at h
    · exact nomatch h
    · cases h; exact .inr ⟨_, rfl⟩

theorem ml_takes_mono (id N : Nat) {e : Exec Timer.step} (n m : Nat) (hm : n ≤ m) (h : N ≤ (takes id (e.st n).trace).length) : N ≤ (takes id (e.st m).trace).length :=
  e.always (P := fun s => N ≤ (takes id s.trace).length) n h (fun s a s' hp hs => by
    rcases ml_grow hs with h | ⟨x, h⟩
    · rw [h]; exact hp
    · rw [h]
      cases x with
      | taken i t sc c =>
        simp only [takes]
        split
        · simp; omega
        · exact hp
      | _ => exact hp) m hm

theorem ml_mem {e : Exec Timer.step} (x : Ev) (n m : Nat) (hm : n ≤ m) (h : x ∈ (e.st n).trace) : x ∈ (e.st m).trace :=
  e.always (P := fun s => x ∈ s.trace) n h (fun s a s' hp hs => by
    rcases ml_grow hs with h | ⟨x, h⟩
    · rw [h]; exact hp
    · rw [h]; exact List.mem_cons_of_mem _ hp) m hm

/-- An element of a timer that is not released is taken. -/
theorem ml_taken {e : Exec Timer.step} (hl : Timer.Live e) (x : Entry) (n : Nat) (hx : x ∈ (e.st n).pq) (hd : ∀ m, x.timer ∉ (e.st m).dead) :
    ∃ m, n ≤ m ∧ (takes x.id (e.st n).trace).length + 1 ≤ (takes x.id (e.st m).trace).length := by
  apply Classical.byContradiction
  intro hno
  -- it stays for ever
  have hstay : ∀ m, n ≤ m → x ∈ (e.st m).pq := by
    intro m hm
    induction m with
    | zero =>
      have : n = 0 := by omega
      subst this; exact hx
    | succ m ih =>
      by_cases h : n = m + 1
      · subst h; exact hx
      · have ih := ih (by omega)
        rcases e.next m with ⟨-, h⟩ | ⟨a, -, h⟩
        · rw [h]; exact ih
        · rcases ml_step (ml_reach hl m) h x ih (hd m) with h | h
          · exact h
          · refine absurd ⟨m + 1, hm, ?_⟩ hno
            have := ml_takes_mono x.id _ n m (by omega) (Nat.le_refl _) (e := e)
            omega
  obtain ⟨n1, h1⟩ := hl.clock x.next
  obtain ⟨n2, h2⟩ := hl.prompt x.next
  have hclock : ∀ m, n1 ≤ m → x.next ≤ (e.st m).clock := fun m hm => e.always (P := fun s => x.next ≤ s.clock) n1 h1 (fun s a s' hp hs => Int.le_trans hp (ml_clock hs)) m hm
  let N := max n (max n1 n2)
  have hN1 : n ≤ N := Nat.le_max_left ..
  have hN2 : n1 ≤ N := Nat.le_trans (Nat.le_max_left ..) (Nat.le_max_right ..)
  have hN3 : n2 ≤ N := Nat.le_trans (Nat.le_max_right ..) (Nat.le_max_right ..)
  obtain ⟨m, -, hf⟩ := e.leads_often (P := fun k => N ≤ k) (Q := fun _ => False) (T := Loops) (fun k => ((e.st k).pq.map (mlWeight x.next)).sum)
    (fun k hk => by
      rcases e.next k with ⟨-, h⟩ | ⟨a, ha, h⟩
      · rw [h]; exact .inl ⟨by omega, Nat.le_refl _⟩
      · exact .inl ⟨by omega, (ml_fewer (ml_reach hl k) h x (hstay k (by omega)) (hclock k (by omega)) fun timer delay period ago h => h2 k (by omega) timer delay period ago (h ▸ ha)).1⟩)
    (fun k hk => hl.loop k fun j hj => by
      obtain ⟨i, hi, hc⟩ := ml_none hl j
      have hk := (hk k (Nat.le_refl _)).1
      have hmem := hstay i (by omega)
      obtain ⟨q, y, h3, h4⟩ := ml_least (e.st i).pq (fun h => by rw [h] at hmem; exact nomatch hmem)
      refine ⟨i, hi, _, ⟨q, rfl⟩, ?_⟩
      simp only [Timer.step, hc, h3, h4]
      simp only [Option.isSome_none, Bool.false_eq_true, if_false, if_true]
      split
      · rfl
      split
      · rfl
      split <;> rfl)
    (fun k hk ⟨a, ha, hta⟩ => by
      rcases e.next k with ⟨h, -⟩ | ⟨a', ha', h⟩
      · rw [ha] at h; exact nomatch h
      · rw [ha] at ha'; cases ha'
        exact .inl ⟨by omega, (ml_fewer (ml_reach hl k) h x (hstay k (by omega)) (hclock k (by omega)) fun timer delay period ago h => h2 k (by omega) timer delay period ago (h ▸ ha)).2 hta⟩)
    N (Nat.le_refl _)
  exact hf

theorem ml_dead {s} (h : Timer.Reachable s) (t : Nat) (hd : t ∈ s.dead) : .released t ∈ s.trace := by
  induction h with
  | init => exact nomatch hd
  | @step s s' a hr hs ih =>
    have keep : s'.dead = s.dead → .released t ∈ s'.trace := fun h => by
      rw [h] at hd
      rcases ml_grow hs with h | ⟨x, h⟩
      · rw [h]; exact ih hd
      · rw [h]; exact List.mem_cons_of_mem _ (ih hd)
    cases a with
    | pass d =>
      simp only [Timer.step] at hs
      split at hs
      · cases hs; exact keep rfl
      · exact nomatch hs
    | release u =>
      cases hs
      rcases List.mem_cons.1 hd with rfl | hd
      · exact List.mem_cons_self ..
      · exact List.mem_cons_of_mem _ (ih hd)
    | insert timer delay period ago =>
      simp only [Timer.step] at hs
      split at hs
      · exact nomatch hs
      split at hs
      · exact nomatch hs
      split at hs
      · cases hs; exact keep rfl
      split at hs <;> (cases hs; exact keep rfl)
    | loop k =>
      simp only [Timer.step] at hs
      split at hs
      · exact nomatch hs
      split at hs
      · exact nomatch hs
      split at hs
      · split at hs
        · cases hs; exact keep rfl
        split at hs
        · cases hs; exact keep rfl
        split at hs <;> (cases hs; exact keep rfl)
      · exact nomatch hs
    | call =>
      simp only [Timer.step] at hs
      split at hs
      · exact nomatch hs
      · cases hs; exact keep rfl

theorem ml_one {tr : List Ev} {id t : Nat} {sch c : Int} (h : .taken id t sch c ∈ tr) : 0 + 1 ≤ (takes id tr).length := by
  induction tr with
  | nil => exact nomatch h
  | cons y tr ih =>
    rcases List.mem_cons.1 h with rfl | h
    · simp [takes]
    · have := ih h
      cases y with
      | taken i a b c =>
        simp only [takes]
        split
        · simp
        · exact this
      | _ => exact this

/-- C127: a timer fires as often as its schedule says: if it is not released, a one-shot timer fires, and the callback of a periodic timer is called with all times of its
schedule, one after another. -/
theorem C127_timer (e : Exec Timer.step) (hl : Timer.Live e) (n id t : Nat) (now delay period : Int) (h : .inserted id t now delay period ∈ (e.st n).trace) (N : Nat) (hN : period = 0 → N ≤ 1) :
    ∃ m, n ≤ m ∧ (.released t ∈ (e.st m).trace ∨ ∃ c, N ≤ c ∧ ticks id (e.st m).trace = schedule (now + delay) period c) := by
  by_cases hrel : ∃ m, n ≤ m ∧ .released t ∈ (e.st m).trace
  · obtain ⟨m, hm, h⟩ := hrel; exact ⟨m, hm, .inl h⟩
  have hd : ∀ m, t ∉ (e.st m).dead := by
    intro m hm
    refine hrel ⟨max n m, Nat.le_max_left .., ml_mem (e := e) _ m _ (Nat.le_max_right ..) ?_⟩
    exact ml_dead (ml_reach hl m) t hm
  have htakes : ∃ m, n ≤ m ∧ N ≤ (takes id (e.st m).trace).length := by
    induction N with
    | zero => exact ⟨n, Nat.le_refl _, Nat.zero_le _⟩
    | succ N ih =>
      obtain ⟨m, hm, h1⟩ := ih (fun h => by have := hN h; omega)
      by_cases h2 : N + 1 ≤ (takes id (e.st m).trace).length
      · exact ⟨m, hm, h2⟩
      have hi := ml_mem (e := e) _ n m hm h
      have hr := ml_reach hl m
      rcases C32_not_lost _ hr id t now delay period hi (hd m) with ⟨x, hx, rfl⟩ | ⟨hp, t', sch, c, htk⟩
      · obtain ⟨n', d', h3, -⟩ := (inv hr).queued x hx
        obtain ⟨rfl, -⟩ := (inv hr).same _ _ _ _ _ _ _ _ _ h3 hi
        obtain ⟨m', hm', h4⟩ := ml_taken hl x m hx hd
        exact ⟨m', by omega, by omega⟩
      · have : N = 0 := by have := hN hp; omega
        subst this
        refine ⟨m, hm, ?_⟩
        exact ml_one htk
  obtain ⟨m, hm, h1⟩ := htakes
  obtain ⟨m', hm', h2⟩ := ml_none hl m
  have hr := ml_reach hl m'
  have h3 := ml_takes_mono id N m m' hm' h1
  obtain ⟨-, h4, -⟩ := (inv hr).sched id t now delay period (ml_mem (e := e) _ n m' (by omega) h)
  rw [(inv hr).idle h2 id] at h3 h4
  exact ⟨m', by omega, .inr ⟨_, h3, h4⟩⟩

def timerLiveDemo : List Timer.Act := [.insert 3 5 0 0, .pass 5, .loop 0, .call]

/-- Non-vacuity: a one-shot timer fires after 5 nanoseconds, and time goes on for ever. -/
def timerLiveExec : Exec Timer.step where
  st
    | 0 => { clock := 0 }
    | 1 => (Timer.run { clock := 0 } (timerLiveDemo.take 1)).getD { clock := 0 }
    | 2 => (Timer.run { clock := 0 } (timerLiveDemo.take 2)).getD { clock := 0 }
    | 3 => (Timer.run { clock := 0 } (timerLiveDemo.take 3)).getD { clock := 0 }
    | n + 4 => { (Timer.run { clock := 0 } timerLiveDemo).getD { clock := 0 } with clock := 5 + n }
  act
    | 0 => some (.insert 3 5 0 0)
    | 1 => some (.pass 5)
    | 2 => some (.loop 0)
    | 3 => some .call
    | _ + 4 => some (.pass 1)
  ok
    | 0 => rfl
    | 1 => rfl
    | 2 => rfl
    | 3 => rfl
    | _ + 4 => rfl

example : Timer.Live timerLiveExec ∧ .inserted 0 3 0 5 0 ∈ (timerLiveExec.st 1).trace := by
  have tail : ∀ k, (timerLiveExec.st (k + 4)).pq = [] ∧ (timerLiveExec.st (k + 4)).current = none := fun k => ⟨rfl, rfl⟩
  have stop : ∀ T : Timer.Act → Prop, (∀ a, T a → Loops a ∨ a = .call) → timerLiveExec.Fair T := by
    intro T hT n hen
    exfalso
    obtain ⟨k, hk, a, ha, hs⟩ := hen (n + 4) (by omega)
    obtain ⟨j, rfl⟩ : ∃ j, k = j + 4 := ⟨k - 4, by omega⟩
    obtain ⟨h1, h2⟩ := tail j
    rcases hT a ha with ⟨q, rfl⟩ | rfl
    · simp [Timer.step, h1, h2] at hs
    · simp [Timer.step, h2] at hs
  refine ⟨⟨.init 0, fun t => ?_, stop _ fun a h => .inl h, stop _ fun a h => .inr h, fun t => ⟨4, fun m hm timer delay period ago h => ?_⟩⟩, by decide⟩
  · refine ⟨t.toNat + 4, ?_⟩
    show t ≤ 5 + (t.toNat : Int)
    omega
  · obtain ⟨j, rfl⟩ : ∃ j, m = j + 4 := ⟨m - 4, by omega⟩
    exact nomatch h

end Verif.Props
