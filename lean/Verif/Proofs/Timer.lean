import Verif.Spec.Timer
namespace Verif.Timer

/-- As `ticks`, when the timer thread takes the element. -/
def takes (id : Nat) : List Ev → List Int
  | [] => []
  | .taken i _ sch _ :: t => if i = id then takes id t ++ [sch] else takes id t
  | _ :: t => takes id t

theorem schedule_succ (a p : Int) (n : Nat) : schedule a p (n + 1) = schedule a p n ++ [a + (n : Int) * p] := by
  simp [schedule, List.range_succ]

theorem schedule_length (a p : Int) (n : Nat) : (schedule a p n).length = n := by simp [schedule]

def Ids (s : Sys) : Prop := s.pq.Pairwise fun a b => a.id ≠ b.id

structure Inv (s : Sys) : Prop where
  uniq : s.pq.Pairwise fun a b => a.id ≠ b.id
  fresh : ∀ e ∈ s.pq, e.id < s.ids
  /-- elements of the queue belong to an insertion, and have the next time of its schedule -/
  queued : ∀ e ∈ s.pq, ∃ now delay, Ev.inserted e.id e.timer now delay e.period ∈ s.trace ∧
    e.next = now + delay + ((takes e.id s.trace).length : Int) * e.period ∧ (e.period = 0 → takes e.id s.trace = [])
  /-- insertions have been taken according to their schedule -/
  sched : ∀ id timer now delay period, Ev.inserted id timer now delay period ∈ s.trace → id < s.ids ∧
    takes id s.trace = schedule (now + delay) period (takes id s.trace).length ∧ (period = 0 → (takes id s.trace).length ≤ 1)
  same : ∀ id t1 n1 d1 p1 t2 n2 d2 p2, Ev.inserted id t1 n1 d1 p1 ∈ s.trace → Ev.inserted id t2 n2 d2 p2 ∈ s.trace →
    t1 = t2 ∧ n1 = n2 ∧ d1 = d2 ∧ p1 = p2
  none_taken : ∀ id ≥ s.ids, takes id s.trace = []
  current : ∀ e, s.current = some e → ∀ id, takes id s.trace = ticks id s.trace ++ (if e.id = id then [e.next] else [])
  idle : s.current = none → ∀ id, takes id s.trace = ticks id s.trace

theorem erase_mem {l : List Entry} {k : Nat} {x : Entry} (h : x ∈ l.eraseIdx k) : x ∈ l := List.mem_of_mem_eraseIdx h

theorem erase_ne {l : List Entry} (hu : l.Pairwise fun a b => a.id ≠ b.id) {k : Nat} {e x : Entry} (he : l[k]? = some e) (hx : x ∈ l.eraseIdx k) : x.id ≠ e.id := by
  induction l generalizing k with
  | nil => simp at he
  | cons y t ih =>
    cases k with
    | zero => simp at he; subst he; simp at hx; exact fun h => (List.pairwise_cons.1 hu).1 x hx h.symm
    | succ k =>
      simp at he hx
      rcases hx with rfl | hx
      · exact (List.pairwise_cons.1 hu).1 e (List.mem_of_getElem? he)
      · exact ih (List.pairwise_cons.1 hu).2 he hx

theorem inv {s : Sys} (h : Reachable s) : Inv s := by
  induction h with
  | init t => exact ⟨.nil, nofun, nofun, nofun, nofun, fun _ _ => rfl, nofun, fun _ _ => rfl⟩
  | @step s s' a hr hs ih =>
    cases a with
    | pass d =>
      simp only [step] at hs
      split at hs
      · cases hs; exact ⟨ih.uniq, ih.fresh, ih.queued, ih.sched, ih.same, ih.none_taken, ih.current, ih.idle⟩
      · exact nomatch hs
    | release t =>
      cases hs
      refine ⟨ih.uniq, ih.fresh, ?_, ?_, ?_, ih.none_taken, ih.current, ih.idle⟩
      · intro e he
        obtain ⟨n, d, h1, h2, h3⟩ := ih.queued e he
        exact ⟨n, d, List.mem_cons_of_mem _ h1, h2, h3⟩
      · intro id timer now delay period hm
        exact ih.sched id timer now delay period (by simpa using hm)
      · intro id t1 n1 d1 p1 t2 n2 d2 p2 h1 h2
        exact ih.same id t1 n1 d1 p1 t2 n2 d2 p2 (by simpa using h1) (by simpa using h2)
    | insert timer delay period ago =>
      simp only [step] at hs
      split at hs
      · exact nomatch hs
      split at hs
      · exact nomatch hs
      split at hs
      · cases hs; exact ih
      split at hs
      · cases hs; exact ih
      cases hs
      have hz := ih.none_taken s.ids (Nat.le_refl _)
      refine ⟨?_, ?_, ?_, ?_, ?_, fun id h => ih.none_taken id (Nat.le_of_succ_le h), ih.current, ih.idle⟩
      · rw [List.pairwise_append]
        refine ⟨ih.uniq, by simp, fun a ha b hb => ?_⟩
        simp only [List.mem_singleton] at hb
        subst hb
        exact Nat.ne_of_lt (ih.fresh a ha)
      · intro e he
        rcases List.mem_append.1 he with he | he
        · exact Nat.lt_succ_of_lt (ih.fresh e he)
        · simp only [List.mem_singleton] at he; subst he; exact Nat.lt_succ_self _
      · intro e he
        rcases List.mem_append.1 he with he | he
        · obtain ⟨n, d, h1, h2, h3⟩ := ih.queued e he
          exact ⟨n, d, List.mem_cons_of_mem _ h1, h2, h3⟩
        · simp only [List.mem_singleton] at he; subst he
          refine ⟨_, _, List.mem_cons_self .., ?_, fun _ => hz⟩
          show _ = _ + ((takes s.ids s.trace).length : Int) * _
          rw [hz]; simp
      · intro id t n d p hm
        rcases List.mem_cons.1 hm with hm | hm
        · cases hm
          refine ⟨Nat.lt_succ_self _, ?_, ?_⟩ <;> show _ <;> simp only [takes, hz] <;> simp [schedule]
        · obtain ⟨h1, h2⟩ := ih.sched id t n d p hm
          exact ⟨Nat.lt_succ_of_lt h1, h2⟩
      · intro id t1 n1 d1 p1 t2 n2 d2 p2 h1 h2
        rcases List.mem_cons.1 h1 with h1 | h1 <;> rcases List.mem_cons.1 h2 with h2 | h2
        · cases h1; cases h2; exact ⟨rfl, rfl, rfl, rfl⟩
        · cases h1; exact absurd (ih.sched _ _ _ _ _ h2).1 (Nat.lt_irrefl _)
        · cases h2; exact absurd (ih.sched _ _ _ _ _ h1).1 (Nat.lt_irrefl _)
        · exact ih.same id t1 n1 d1 p1 t2 n2 d2 p2 h1 h2
    | loop k =>
      simp only [step] at hs
      split at hs
      · exact nomatch hs
      rename_i hcur
      have hcur : s.current = none := by simpa using hcur
      split at hs
      · exact nomatch hs
      rename_i e he
      split at hs
      · rename_i hleast
        split at hs
        · cases hs; exact ih
        split at hs
        · cases hs
          refine ⟨List.Pairwise.sublist (List.eraseIdx_sublist ..) ih.uniq, fun x hx => ih.fresh x (erase_mem hx), fun x hx => ih.queued x (erase_mem hx), ih.sched, ih.same, ih.none_taken, ih.current, ih.idle⟩
        · obtain ⟨n0, d0, q1, q2, q3⟩ := ih.queued e (List.mem_of_getElem? he)
          have helt := ih.fresh e (List.mem_of_getElem? he)
          have hsch := (ih.sched _ _ _ _ _ q1).2
          have htk : ∀ id, takes id (.taken e.id e.timer e.next s.clock :: s.trace) = if e.id = id then takes id s.trace ++ [e.next] else takes id s.trace := fun _ => rfl
          have sched' : ∀ id timer now delay period, Ev.inserted id timer now delay period ∈ Ev.taken e.id e.timer e.next s.clock :: s.trace → id < s.ids ∧
              takes id (.taken e.id e.timer e.next s.clock :: s.trace) = schedule (now + delay) period (takes id (.taken e.id e.timer e.next s.clock :: s.trace)).length ∧
              (period = 0 → (takes id (.taken e.id e.timer e.next s.clock :: s.trace)).length ≤ 1) := by
            intro id timer now delay period hm
            rcases List.mem_cons.1 hm with hm | hm
            · exact nomatch hm
            obtain ⟨h1, h2, h3⟩ := ih.sched id timer now delay period hm
            refine ⟨h1, ?_⟩
            rw [htk]
            by_cases hid : e.id = id
            · subst hid
              rw [if_pos rfl]
              obtain ⟨-, rfl, rfl, rfl⟩ := ih.same _ _ _ _ _ _ _ _ _ hm q1
              refine ⟨?_, fun hp => by rw [q3 hp]; simp⟩
              rw [List.length_append, List.length_singleton, schedule_succ, ← h2, q2]
            · rw [if_neg hid]; exact ⟨h2, h3⟩
          have same' : ∀ id t1 n1 d1 p1 t2 n2 d2 p2, Ev.inserted id t1 n1 d1 p1 ∈ Ev.taken e.id e.timer e.next s.clock :: s.trace →
              Ev.inserted id t2 n2 d2 p2 ∈ Ev.taken e.id e.timer e.next s.clock :: s.trace → t1 = t2 ∧ n1 = n2 ∧ d1 = d2 ∧ p1 = p2 := by
            intro id t1 n1 d1 p1 t2 n2 d2 p2 h1 h2
            exact ih.same id t1 n1 d1 p1 t2 n2 d2 p2 (by simpa using h1) (by simpa using h2)
          have none' : ∀ id ≥ s.ids, takes id (Ev.taken e.id e.timer e.next s.clock :: s.trace) = [] := by
            intro id hid
            rw [htk, if_neg (by omega)]
            exact ih.none_taken id hid
          have cur' : ∀ e', some e = some e' → ∀ id, takes id (Ev.taken e.id e.timer e.next s.clock :: s.trace) =
              ticks id (Ev.taken e.id e.timer e.next s.clock :: s.trace) ++ (if e'.id = id then [e'.next] else []) := by
            intro e' h id
            cases h
            rw [htk]
            show _ = ticks id s.trace ++ _
            rw [ih.idle hcur id]
            split <;> simp
          have quiet : ∀ x : Entry, x ∈ s.pq.eraseIdx k → ∃ now delay, Ev.inserted x.id x.timer now delay x.period ∈ Ev.taken e.id e.timer e.next s.clock :: s.trace ∧
              x.next = now + delay + ((takes x.id (Ev.taken e.id e.timer e.next s.clock :: s.trace)).length : Int) * x.period ∧
              (x.period = 0 → takes x.id (Ev.taken e.id e.timer e.next s.clock :: s.trace) = []) := by
            intro x hx
            obtain ⟨n, d, h1, h2, h3⟩ := ih.queued x (erase_mem hx)
            have hne := erase_ne ih.uniq he hx
            refine ⟨n, d, List.mem_cons_of_mem _ h1, ?_, ?_⟩ <;> rw [htk, if_neg (fun h => hne h.symm)]
            · exact h2
            · exact h3
          split at hs
          · rename_i hper
            cases hs
            refine ⟨?_, ?_, ?_, sched', same', none', cur', nofun⟩
            · rw [List.pairwise_append]
              refine ⟨List.Pairwise.sublist (List.eraseIdx_sublist ..) ih.uniq, by simp, fun a ha b hb => ?_⟩
              simp only [List.mem_singleton] at hb
              subst hb
              have := erase_ne ih.uniq he ha
              exact this
            · intro x hx
              rcases List.mem_append.1 hx with hx | hx
              · exact ih.fresh x (erase_mem hx)
              · simp only [List.mem_singleton] at hx; subst hx; exact helt
            · intro x hx
              rcases List.mem_append.1 hx with hx | hx
              · exact quiet x hx
              · simp only [List.mem_singleton] at hx; subst hx
                refine ⟨n0, d0, List.mem_cons_of_mem _ q1, ?_, fun h => absurd h hper⟩
                show e.next + e.period = _
                rw [htk, if_pos rfl, List.length_append, List.length_singleton, q2]
                have := Int.add_mul ((takes e.id s.trace).length : Int) 1 e.period
                rw [Int.natCast_add]
                show _ = n0 + d0 + ((takes e.id s.trace).length + 1 : Int) * e.period
                omega
          · cases hs
            exact ⟨List.Pairwise.sublist (List.eraseIdx_sublist ..) ih.uniq, fun x hx => ih.fresh x (erase_mem hx), quiet, sched', same', none', cur', nofun⟩
      · exact nomatch hs
    | call =>
      simp only [step] at hs
      split at hs
      · exact nomatch hs
      rename_i e he
      cases hs
      refine ⟨ih.uniq, ih.fresh, ?_, ?_, ?_, ih.none_taken, nofun, ?_⟩
      · intro x hx
        obtain ⟨n, d, h1, h2, h3⟩ := ih.queued x hx
        exact ⟨n, d, List.mem_cons_of_mem _ h1, h2, h3⟩
      · intro id timer now delay period hm
        exact ih.sched id timer now delay period (by simpa using hm)
      · intro id t1 n1 d1 p1 t2 n2 d2 p2 h1 h2
        exact ih.same id t1 n1 d1 p1 t2 n2 d2 p2 (by simpa using h1) (by simpa using h2)
      · intro _ id
        show takes id s.trace = if e.id = id then ticks id s.trace ++ [e.next] else ticks id s.trace
        rw [ih.current e he id]
        split <;> simp

/-- Nothing is taken before its time; times do not go back. -/
structure Late (s : Sys) : Prop where
  taken : ∀ id t sch now, Ev.taken id t sch now ∈ s.trace → sch ≤ now ∧ now ≤ s.clock
  tick : ∀ id t sch now, Ev.tick id t sch now ∈ s.trace → sch ≤ now
  current : ∀ e, s.current = some e → e.next ≤ s.clock

theorem late {s : Sys} (h : Reachable s) : Late s := by
  induction h with
  | init t => exact ⟨nofun, nofun, nofun⟩
  | @step s s' a hr hs ih =>
    cases a with
    | pass d =>
      simp only [step] at hs
      split at hs
      · cases hs
        exact ⟨fun id t sch now hm => ⟨(ih.taken id t sch now hm).1, by have := (ih.taken id t sch now hm).2; simp only; omega⟩, ih.tick, fun e he => by have := ih.current e he; simp only; omega⟩
      · exact nomatch hs
    | release t =>
      cases hs
      exact ⟨fun id t sch now hm => ih.taken id t sch now (by simpa using hm), fun id t sch now hm => ih.tick id t sch now (by simpa using hm), ih.current⟩
    | insert timer delay period ago =>
      simp only [step] at hs
      (repeat' split at hs) <;> cases hs
      · exact ih
      · exact ih
      · exact ⟨fun id t sch now hm => ih.taken id t sch now (by simpa using hm), fun id t sch now hm => ih.tick id t sch now (by simpa using hm), ih.current⟩
    | loop k =>
      simp only [step] at hs
      split at hs
      · exact nomatch hs
      split at hs
      · exact nomatch hs
      split at hs
      · split at hs
        · cases hs; exact ih
        rename_i hd
        split at hs
        · cases hs; exact ⟨ih.taken, ih.tick, ih.current⟩
        split at hs
        all_goals
          cases hs
          refine ⟨fun id t sch now hm => ?_, fun id t sch now hm => ih.tick id t sch now (by simpa using hm), fun e' he => ?_⟩
          · rcases List.mem_cons.1 hm with hm | hm
            · cases hm; simp only; omega
            · exact ih.taken id t sch now hm
          · cases he; simp only; omega
      · exact nomatch hs
    | call =>
      simp only [step] at hs
      split at hs
      · exact nomatch hs
      rename_i e he
      cases hs
      refine ⟨fun id t sch now hm => ih.taken id t sch now (by simpa using hm), fun id t sch now hm => ?_, nofun⟩
      rcases List.mem_cons.1 hm with hm | hm
      · cases hm; exact ih.current e he
      · exact ih.tick id t sch now hm

theorem mono_trace {s s' a} (hs : step s a = some s') : ∃ es, s'.trace = es ++ s.trace ∧ es.length ≤ 1 := by
  cases a <;> simp only [step] at hs <;> (repeat' split at hs) <;> cases hs <;> first | exact ⟨[], rfl, by simp⟩ | exact ⟨[_], rfl, by simp⟩

/-- Released timers are recorded. -/
structure Dead (s : Sys) : Prop where
  dead : ∀ t, Ev.released t ∈ s.trace → t ∈ s.dead
  after : ∀ a b id t sch now, s.trace = a ++ .taken id t sch now :: b → Ev.released t ∉ b

theorem dead {s : Sys} (h : Reachable s) : Dead s := by
  induction h with
  | init t => exact ⟨nofun, fun a b _ _ _ _ h => by simp at h⟩
  | @step s s' a hr hs ih =>
    have other : ∀ e, (∀ id t sch now, e ≠ Ev.taken id t sch now) → ∀ a b id t sch now, e :: s.trace = a ++ .taken id t sch now :: b → Ev.released t ∉ b := by
      intro e he a b id t sch now heq
      cases a with
      | nil => exact absurd (List.cons.inj heq).1 (he id t sch now)
      | cons x a => exact ih.after a b id t sch now (List.cons.inj heq).2
    cases a with
    | pass d =>
      simp only [step] at hs
      split at hs
      · cases hs; exact ⟨ih.dead, ih.after⟩
      · exact nomatch hs
    | release t =>
      cases hs
      refine ⟨fun x hx => ?_, other _ (by simp)⟩
      rcases List.mem_cons.1 hx with hx | hx
      · cases hx; simp
      · exact List.mem_cons_of_mem _ (ih.dead x hx)
    | insert timer delay period ago =>
      simp only [step] at hs
      (repeat' split at hs) <;> cases hs
      · exact ih
      · exact ih
      · exact ⟨fun x hx => ih.dead x (by simpa using hx), other _ (by simp)⟩
    | loop k =>
      simp only [step] at hs
      split at hs
      · exact nomatch hs
      split at hs
      · exact nomatch hs
      split at hs
      · split at hs
        · cases hs; exact ih
        split at hs
        · cases hs; exact ⟨ih.dead, ih.after⟩
        rename_i hnd
        split at hs
        all_goals
          cases hs
          refine ⟨fun x hx => ih.dead x (by simpa using hx), ?_⟩
          intro a b id t sch now heq
          cases a with
          | nil =>
            obtain ⟨h1, h2⟩ := List.cons.inj heq
            cases h1
            rw [← h2]
            exact fun h => hnd (ih.dead _ h)
          | cons x a => exact ih.after a b id t sch now (List.cons.inj heq).2
      · exact nomatch hs
    | call =>
      simp only [step] at hs
      split at hs
      · exact nomatch hs
      cases hs
      exact ⟨fun x hx => ih.dead x (by simpa using hx), other _ (by simp)⟩

/-- Every suffix of the history is the history of an earlier state. -/
theorem suffix {s : Sys} (h : Reachable s) : ∀ a b, s.trace = a ++ b → ∃ s0, Reachable s0 ∧ s0.trace = b := by
  induction h with
  | init t => intro a b heq; exact ⟨_, .init t, by simp at heq; rw [heq.2]⟩
  | @step s s' x hr hs ih =>
    intro a b heq
    obtain ⟨es, he, hl⟩ := mono_trace hs
    cases a with
    | nil => exact ⟨s', hr.step x hs, heq⟩
    | cons y a =>
      match es, hl with
      | [], _ => exact ih (y :: a) b (by rw [← heq, he]; rfl)
      | [e], _ =>
        rw [he] at heq
        exact ih a b (List.cons.inj heq).2

def ofTimer (t : Nat) : Ev → Bool
  | .tick _ t' _ _ => t' == t
  | _ => false

def takeOf (t : Nat) : Ev → Bool
  | .taken _ t' _ _ => t' == t
  | _ => false

theorem balance {s : Sys} (h : Reachable s) (t : Nat) :
    s.trace.countP (takeOf t) = s.trace.countP (ofTimer t) + (if s.current.any (fun e => e.timer == t) then 1 else 0) := by
  induction h with
  | init => rfl
  | @step s s' x hr hs ih =>
    cases x <;> simp only [step] at hs <;> (repeat' split at hs) <;> cases hs <;>
      simp_all [List.countP_cons, takeOf, ofTimer] <;> (repeat' split at ih) <;> (repeat' split) <;> simp_all

/-- What is taken or ticks has been inserted, and what has been inserted is still there unless it has gone off. -/
structure Kept (s : Sys) : Prop where
  pq : ∀ e ∈ s.pq, ∃ now delay, Ev.inserted e.id e.timer now delay e.period ∈ s.trace
  current : ∀ e, s.current = some e → ∃ now delay, Ev.inserted e.id e.timer now delay e.period ∈ s.trace
  tick : ∀ id t sch n, Ev.tick id t sch n ∈ s.trace → ∃ now delay period, Ev.inserted id t now delay period ∈ s.trace
  there : ∀ id t now delay period, Ev.inserted id t now delay period ∈ s.trace → t ∉ s.dead →
    (∃ e ∈ s.pq, e.id = id) ∨ (period = 0 ∧ takes id s.trace ≠ [])

theorem eraseIdx_other {l : List Entry} {k : Nat} {e x : Entry} (he : l[k]? = some e) (hx : x ∈ l) (hne : x ≠ e) : x ∈ l.eraseIdx k := by
  induction l generalizing k with
  | nil => simp at he
  | cons y t ih =>
    cases k with
    | zero =>
      simp at he; subst he
      rcases List.mem_cons.1 hx with h | h
      · exact absurd h hne
      · simpa using h
    | succ k =>
      simp at he
      rcases List.mem_cons.1 hx with h | h
      · simp [h]
      · simp [ih he h]

theorem kept {s : Sys} (h : Reachable s) : Kept s := by
  induction h with
  | init => exact ⟨nofun, nofun, nofun, nofun⟩
  | @step s s' a hr hs ih =>
    have grow : ∀ x : Ev, ∀ e : Entry, (∃ now delay, Ev.inserted e.id e.timer now delay e.period ∈ s.trace) → ∃ now delay, Ev.inserted e.id e.timer now delay e.period ∈ x :: s.trace :=
      fun x e ⟨n, d, h⟩ => ⟨n, d, List.mem_cons_of_mem _ h⟩
    have growt : ∀ x : Ev, (∀ id t sch n, x ≠ .tick id t sch n) → ∀ id t sch n, Ev.tick id t sch n ∈ x :: s.trace → ∃ now delay period, Ev.inserted id t now delay period ∈ x :: s.trace := by
      intro x hx id t sch n hm
      rcases List.mem_cons.1 hm with hm | hm
      · exact absurd hm.symm (hx id t sch n)
      · obtain ⟨a, b, c, h⟩ := ih.tick id t sch n hm
        exact ⟨a, b, c, List.mem_cons_of_mem _ h⟩
    cases a with
    | pass d =>
      simp only [step] at hs
      split at hs
      · cases hs; exact ⟨ih.pq, ih.current, ih.tick, ih.there⟩
      · exact nomatch hs
    | release t =>
      cases hs
      refine ⟨fun e he => grow _ e (ih.pq e he), fun e he => grow _ e (ih.current e he), growt _ (by simp), ?_⟩
      intro id t' now delay period hm hd
      exact ih.there id t' now delay period (by simpa using hm) (fun h => hd (List.mem_cons_of_mem _ h))
    | insert timer delay period ago =>
      simp only [step] at hs
      (repeat' split at hs) <;> cases hs
      · exact ih
      · exact ih
      · refine ⟨fun e he => ?_, fun e he => grow _ e (ih.current e he), growt _ (by simp), ?_⟩
        · rcases List.mem_append.1 he with he | he
          · exact grow _ e (ih.pq e he)
          · simp only [List.mem_singleton] at he; subst he
            exact ⟨_, _, List.mem_cons_self ..⟩
        · intro id t' now delay period hm hd
          rcases List.mem_cons.1 hm with hm | hm
          · cases hm; exact .inl ⟨_, List.mem_append_right _ (List.mem_singleton_self _), rfl⟩
          · rcases ih.there id t' now delay period hm hd with ⟨e, he, h⟩ | h
            · exact .inl ⟨e, List.mem_append_left _ he, h⟩
            · exact .inr h
    | loop k =>
      simp only [step] at hs
      split at hs
      · exact nomatch hs
      split at hs
      · exact nomatch hs
      rename_i e he
      have hmem := List.mem_of_getElem? he
      split at hs
      · split at hs
        · cases hs; exact ih
        split at hs
        · rename_i hdead
          cases hs
          refine ⟨fun x hx => ih.pq x (erase_mem hx), ih.current, ih.tick, ?_⟩
          intro id t now delay period hm hd
          rcases ih.there id t now delay period hm hd with ⟨x, hx, h⟩ | h
          · refine .inl ⟨x, eraseIdx_other he hx ?_, h⟩
            intro hxe
            obtain ⟨n2, d2, h2⟩ := ih.pq x hx
            rw [h] at h2
            have := ((inv hr).same _ _ _ _ _ _ _ _ _ h2 hm).1
            rw [hxe] at this
            exact hd (this ▸ hdead)
          · exact .inr h
        split at hs
        · cases hs
          refine ⟨fun x hx => ?_, fun x hx => ?_, growt _ (by simp), ?_⟩
          · rcases List.mem_append.1 hx with hx | hx
            · exact grow _ x (ih.pq x (erase_mem hx))
            · simp only [List.mem_singleton] at hx; subst hx
              exact grow _ e (ih.pq e hmem)
          · cases hx; exact grow _ e (ih.pq e hmem)
          · intro id t now delay period hm hd
            rcases ih.there id t now delay period (by simpa using hm) hd with ⟨x, hx, h⟩ | ⟨h1, h2⟩
            · left
              by_cases hxe : x = e
              · exact ⟨_, List.mem_append_right _ (List.mem_singleton_self _), by rw [← h, hxe]⟩
              · exact ⟨x, List.mem_append_left _ (eraseIdx_other he hx hxe), h⟩
            · right
              refine ⟨h1, ?_⟩
              simp only [takes]
              split <;> simp [h2]
        · rename_i hper
          cases hs
          refine ⟨fun x hx => grow _ x (ih.pq x (erase_mem hx)), fun x hx => by cases hx; exact grow _ e (ih.pq e hmem), growt _ (by simp), ?_⟩
          intro id t now delay period hm hd
          rcases ih.there id t now delay period (by simpa using hm) hd with ⟨x, hx, h⟩ | ⟨h1, h2⟩
          · by_cases hxe : x = e
            · right
              obtain ⟨n2, d2, h2⟩ := ih.pq x hx
              rw [h] at h2
              have := ((inv hr).same _ _ _ _ _ _ _ _ _ h2 (by simpa using hm)).2.2.2
              refine ⟨by rw [← this, hxe]; simpa using hper, ?_⟩
              simp only [takes]
              rw [if_pos (by rw [← h, hxe])]
              simp
            · exact .inl ⟨x, eraseIdx_other he hx hxe, h⟩
          · right
            refine ⟨h1, ?_⟩
            simp only [takes]
            split <;> simp [h2]
      · exact nomatch hs
    | call =>
      simp only [step] at hs
      split at hs
      · exact nomatch hs
      rename_i e he
      cases hs
      refine ⟨fun x hx => grow _ x (ih.pq x hx), nofun, ?_, ?_⟩
      · intro id t sch n hm
        rcases List.mem_cons.1 hm with hm | hm
        · cases hm
          obtain ⟨n, d, h⟩ := ih.current e he
          exact ⟨n, d, _, List.mem_cons_of_mem _ h⟩
        · obtain ⟨a, b, c, h⟩ := ih.tick id t sch n hm
          exact ⟨a, b, c, List.mem_cons_of_mem _ h⟩
      · intro id t now delay period hm hd
        exact ih.there id t now delay period (by simpa using hm) hd

end Verif.Timer
