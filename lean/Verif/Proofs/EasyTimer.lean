import Verif.Model.EasyTimer
import Verif.Spec.Timer
import Verif.Props.Heap
import Verif.Props.Timer
import Verif.Proofs.UdpLink
namespace Verif.EasyTimer
open Verif.Timer (Ev ticks schedule)
open Verif.UdpLink (handed pending easy_keep easy_packet)

def quiet : Ev → Bool
  | .taken _ _ _ _ => true
  | .released _ => true
  | _ => false

/-- What a step of the scheduler does to its history. -/
theorem sched_shape {s s' : TimerHeap.Sys} (h : TimerHeap.Inv s) {a : TimerHeap.Act} (hs : TimerHeap.step s a = .ok s') :
    s.clock ≤ s'.clock ∧
    ((s'.trace = s.trace ∧ s'.ids = s.ids) ∨ (∃ e, quiet e = true ∧ s'.trace = e :: s.trace ∧ s'.ids = s.ids) ∨
     (∃ t d p ago l, a = .insert t d p ago l ∧ 0 ≤ d ∧ 0 ≤ p ∧ s'.ids = s.ids + 1 ∧ s'.trace = .inserted s.ids t (s.clock - ago) d p :: s.trace) ∨
     (∃ e, a = .call ∧ s.thread = .calling e ∧ s'.ids = s.ids ∧ s'.clock = s.clock ∧ s'.trace = .tick e.id e.timer e.next s.clock :: s.trace)) := by
  cases a with
  | pass d =>
    simp only [TimerHeap.step] at hs
    split at hs <;> cases hs
    exact ⟨by simp only; omega, .inl ⟨rfl, rfl⟩⟩
  | insert t d p ago l =>
    simp only [TimerHeap.step] at hs
    rcases TimerHeap.insert_cases h.heap t d p ago l with e | ⟨e, -⟩ | ⟨s1, e, -, -, hd, hp, rfl, -, -⟩
    · rw [e] at hs; cases hs
    · rw [e] at hs; cases hs; exact ⟨Int.le_refl _, .inl ⟨rfl, rfl⟩⟩
    · rw [e] at hs; cases hs; exact ⟨Int.le_refl _, .inr (.inr (.inl ⟨t, d, p, ago, l, rfl, by omega, by omega, rfl, rfl⟩))⟩
  | release t => cases hs; exact ⟨Int.le_refl _, .inr (.inl ⟨_, rfl, rfl, rfl⟩)⟩
  | loop l l' late =>
    simp only [TimerHeap.step] at hs
    split at hs
    · rcases TimerHeap.loop_cases h.heap l l' late with e | ⟨-, e⟩ | ⟨x, -, -, ⟨-, hlate, e⟩ | ⟨-, l0, -, -, ⟨-, e⟩ | ⟨-, -, -, -, e⟩ | ⟨-, -, e⟩⟩⟩ <;> rw [e] at hs <;> cases hs
      · exact ⟨Int.le_refl _, .inl ⟨rfl, rfl⟩⟩
      · exact ⟨by simp only; omega, .inl ⟨rfl, rfl⟩⟩
      · exact ⟨Int.le_refl _, .inl ⟨rfl, rfl⟩⟩
      · exact ⟨Int.le_refl _, .inr (.inl ⟨_, rfl, rfl, rfl⟩)⟩
      · exact ⟨Int.le_refl _, .inr (.inl ⟨_, rfl, rfl, rfl⟩)⟩
    · cases hs
  | wake =>
    simp only [TimerHeap.step] at hs
    split at hs <;> cases hs
    exact ⟨Int.le_refl _, .inl ⟨rfl, rfl⟩⟩
  | call =>
    simp only [TimerHeap.step] at hs
    split at hs
    · rename_i e he
      cases hs
      exact ⟨Int.le_refl _, .inr (.inr (.inr ⟨e, rfl, he, rfl, rfl, rfl⟩))⟩
    · cases hs

theorem run_append (s : TimerHeap.Sys) (as : List TimerHeap.Act) (a : TimerHeap.Act) {s1 s2 : TimerHeap.Sys} (h1 : TimerHeap.run s as = .ok s1) (h2 : TimerHeap.step s1 a = .ok s2) :
    TimerHeap.run s (as ++ [a]) = .ok s2 := by
  induction as generalizing s with
  | nil => cases h1; simp only [List.nil_append, TimerHeap.run, h2]
  | cons b as ih =>
    simp only [List.cons_append, TimerHeap.run] at h1 ⊢
    split at h1
    · exact ih _ h1
    · rename_i hne; exact absurd h1 (hne s1)

theorem queues_length {α : Type} {s s' : EasyQueue.Sys α} {a : EasyQueue.Act α} (h : EasyQueue.step s a = some s') : s.queues.length ≤ s'.queues.length := by
  cases a with
  | packet p x => simp only [EasyQueue.step] at h; split at h; (split at h <;> cases h <;> exact Nat.le_refl _); cases h
  | push f =>
    simp only [EasyQueue.step] at h
    split at h
    · unfold EasyQueue.push at h
      split at h
      · cases h
      · cases f <;> (try simp only at h) <;> (try split at h) <;> cases h <;> simp
    · cases h
  | create => simp only [EasyQueue.step] at h; split at h <;> cases h; simp
  | assign => simp only [EasyQueue.step, EasyQueue.setOwn] at h; split at h; (split at h <;> cases h <;> exact Nat.le_refl _); (cases h; exact Nat.le_refl _); cases h
  | stop => simp only [EasyQueue.step, EasyQueue.setOwn] at h; split at h; (split at h <;> cases h <;> exact Nat.le_refl _); (cases h; exact Nat.le_refl _); cases h
  | resume f => simp only [EasyQueue.step] at h; split at h; (split at h; (split at h <;> cases h; exact Nat.le_refl _); cases h); cases h
  | enter f => simp only [EasyQueue.step] at h; split at h; (split at h; (split at h; (split at h <;> cases h <;> exact Nat.le_refl _); cases h); cases h); cases h
  | pop f =>
    simp only [EasyQueue.step] at h
    split at h
    · split at h
      · split at h
        · unfold EasyQueue.pop at h
          split at h
          · cases h
          · split at h <;> cases h <;> simp
        · cases h
      · cases h
    · cases h
  | yield f => simp only [EasyQueue.step] at h; split at h; (split at h; (split at h <;> cases h; exact Nat.le_refl _); cases h); cases h
  | back f => simp only [EasyQueue.step] at h; split at h; (split at h; (split at h <;> cases h; exact Nat.le_refl _); cases h); cases h

theorem packet_lt {α : Type} {s s' : EasyQueue.Sys α} {p : Nat} {x : α} (h : EasyQueue.step s (.packet p x) = some s') : p < s.queues.length := by
  simp only [EasyQueue.step] at h
  split at h
  · rename_i hc; exact hc.2
  · cases h

theorem create_length {α : Type} {s s' : EasyQueue.Sys α} (h : EasyQueue.step s .create = some s') : s'.queues.length = s.queues.length + 1 := by
  simp only [EasyQueue.step] at h; split at h <;> cases h; simp

theorem ticks_none {id : Nat} {t : List Ev} (h : ∀ k a b, Ev.tick id k a b ∉ t) : ticks id t = [] := by
  induction t with
  | nil => rfl
  | cons e t ih =>
    have ih := ih fun k a b hm => h k a b (.tail _ hm)
    cases e with
    | tick i k a b =>
      simp only [ticks]
      split
      · rename_i he; subst he; exact absurd (.head _) (h k a b)
      · exact ih
    | _ => exact ih

theorem mem_ticks {id : Nat} {t : List Ev} {x : Int} (h : x ∈ ticks id t) : ∃ k b, Ev.tick id k x b ∈ t := by
  induction t with
  | nil => cases h
  | cons e t ih =>
    have tail : x ∈ ticks id t → ∃ k b, Ev.tick id k x b ∈ e :: t := fun h => let ⟨k, b, h⟩ := ih h; ⟨k, b, .tail _ h⟩
    cases e with
    | tick i k a b =>
      simp only [ticks] at h
      split at h
      · rename_i he
        subst he
        rcases List.mem_append.mp h with h | h
        · exact tail h
        · cases List.mem_singleton.mp h; exact ⟨k, b, .head _⟩
      · exact tail h
    | _ => exact tail h

theorem ticks_mem {id t : Nat} {x b : Int} {l : List Ev} (h : Ev.tick id t x b ∈ l) : x ∈ ticks id l := by
  induction l with
  | nil => cases h
  | cons e l ih =>
    rcases List.mem_cons.mp h with rfl | h
    · simp [ticks]
    · have := ih h
      cases e with
      | tick i k a c => simp only [ticks]; split <;> simp [this]
      | _ => exact this

structure Inv (t0 : Int) (w : World) : Prop where
  run : TimerHeap.run { clock := t0 } w.done.reverse = .ok w.sched
  easy : ∀ i, EasyQueue.Reachable (w.ends i)
  ids : ∀ id t now d p, Ev.inserted id t now d p ∈ w.sched.trace → id < w.sched.ids
  one : ∀ id t now d p t' now' d' p', Ev.inserted id t now d p ∈ w.sched.trace → Ev.inserted id t' now' d' p' ∈ w.sched.trace → t = t'
  ins : ∀ id n now d p, Ev.inserted id (2 * n) now d p ∈ w.sched.trace → ∃ i q, w.links[n]? = some (id, i, q)
  link : ∀ (n id i q : Nat), w.links[n]? = some (id, i, q) → q < (w.ends i).queues.length ∧ ∃ now d p, Ev.inserted id (2 * n) now d p ∈ w.sched.trace
  uniq : ∀ (n id m id' i q : Nat), w.links[n]? = some (id, i, q) → w.links[m]? = some (id', i, q) → n = m
  all : ∀ (n id i q : Nat), w.links[n]? = some (id, i, q) → ticks id w.sched.trace = handed (w.ends i).trace q ++ pending (w.ends i) q
  fresh : ∀ i q, (w.ends i).queues.length ≤ q → handed (w.ends i).trace q ++ pending (w.ends i) q = []
  clock : ∀ id t a b, Ev.tick id t a b ∈ w.sched.trace → b ≤ w.sched.clock
  pos : ∀ id t now d p, Ev.inserted id t now d p ∈ w.sched.trace → 0 ≤ d ∧ 0 ≤ p

theorem Inv.heap {t0 : Int} {w : World} (h : Inv t0 w) : TimerHeap.Inv w.sched := (TimerHeap.run_inv (TimerHeap.inv_init t0) w.done.reverse).2 _ h.run

/-- Steps of the scheduler that are not ticks of easy timers. -/
theorem inv_sched {t0 : Int} {w : World} (ih : Inv t0 w) {a : TimerHeap.Act} {s : TimerHeap.Sys} (hs : TimerHeap.step w.sched a = .ok s) (hf : foreign a = true) :
    Inv t0 { w with sched := s, done := a :: w.done } := by
  have hrun : TimerHeap.run { clock := t0 } (a :: w.done).reverse = .ok s := by rw [List.reverse_cons]; exact run_append _ _ _ ih.run hs
  obtain ⟨hc, hq⟩ := sched_shape ih.heap hs
  have keep : ∀ e, s.trace = e :: w.sched.trace → quiet e = true → s.ids = w.sched.ids → Inv t0 { w with sched := s, done := a :: w.done } := by
    intro e ht hq hi
    have hin : ∀ id t now d p, Ev.inserted id t now d p ∈ s.trace → Ev.inserted id t now d p ∈ w.sched.trace := by
      intro id t now d p hm
      rw [ht] at hm
      rcases List.mem_cons.mp hm with hm | hm
      · subst hm; cases hq
      · exact hm
    have htk : ∀ id, ticks id s.trace = ticks id w.sched.trace := by intro id; rw [ht]; cases e <;> first | rfl | cases hq
    refine ⟨hrun, ih.easy, fun id t now d p hm => hi ▸ ih.ids _ _ _ _ _ (hin _ _ _ _ _ hm), fun id t now d p t' now' d' p' h1 h2 => ih.one _ _ _ _ _ _ _ _ _ (hin _ _ _ _ _ h1) (hin _ _ _ _ _ h2),
      fun id n now d p hm => ih.ins _ _ _ _ _ (hin _ _ _ _ _ hm), fun n id i q hl => ⟨(ih.link n id i q hl).1, ?_⟩, ih.uniq, fun n id i q hl => (htk id).trans (ih.all n id i q hl), ih.fresh,
      fun id t a b hm => ?_, fun id t now d p hm => ih.pos _ _ _ _ _ (hin _ _ _ _ _ hm)⟩
    · obtain ⟨-, now, d, p, hm⟩ := ih.link n id i q hl
      exact ⟨now, d, p, by simp only [ht]; exact .tail _ hm⟩
    · simp only [ht] at hm
      rcases List.mem_cons.mp hm with hm | hm
      · subst hm; cases hq
      · exact Int.le_trans (ih.clock _ _ _ _ hm) hc
  rcases hq with ⟨ht, hi⟩ | ⟨e, hq, ht, hi⟩ | ⟨t, d, p, ago, l, rfl, hd0, hp0, hi, ht⟩ | ⟨e, rfl, -⟩
  · refine ⟨hrun, ih.easy, ?_, ?_, ?_, ?_, ih.uniq, ?_, ih.fresh, ?_, ?_⟩ <;> simp only [ht, hi]
    · exact ih.ids
    · exact ih.one
    · exact ih.ins
    · exact ih.link
    · exact ih.all
    · exact fun id t a b hm => Int.le_trans (ih.clock id t a b hm) hc
    · exact ih.pos
  · exact keep e ht hq hi
  · have hodd : t % 2 = 1 := by simpa [foreign] using hf
    refine ⟨hrun, ih.easy, ?_, ?_, ?_, ?_, ih.uniq, ?_, ih.fresh, ?_, ?_⟩ <;> simp only [ht, hi]
    · intro id t' now' d' p' hm
      rcases List.mem_cons.mp hm with hm | hm
      · cases hm; omega
      · have := ih.ids _ _ _ _ _ hm; omega
    · intro id t1 n1 d1 p1 t2 n2 d2 p2 h1 h2
      rcases List.mem_cons.mp h1 with h1 | h1 <;> rcases List.mem_cons.mp h2 with h2 | h2
      · cases h1; cases h2; rfl
      · cases h1; exact absurd (ih.ids _ _ _ _ _ h2) (Nat.lt_irrefl _)
      · cases h2; exact absurd (ih.ids _ _ _ _ _ h1) (Nat.lt_irrefl _)
      · exact ih.one _ _ _ _ _ _ _ _ _ h1 h2
    · intro id n n1 d1 p1 hm
      rcases List.mem_cons.mp hm with hm | hm
      · cases hm; omega
      · exact ih.ins _ _ _ _ _ hm
    · intro n id i q hl
      obtain ⟨h1, now, d, p, hm⟩ := ih.link n id i q hl
      exact ⟨h1, now, d, p, .tail _ hm⟩
    · exact ih.all
    · intro id t a b hm
      rcases List.mem_cons.mp hm with hm | hm
      · cases hm
      · exact Int.le_trans (ih.clock _ _ _ _ hm) hc
    · intro id t' now' d' p' hm
      rcases List.mem_cons.mp hm with hm | hm
      · cases hm; exact ⟨hd0, hp0⟩
      · exact ih.pos _ _ _ _ _ hm
  · cases hf

/-- A tick has been inserted. -/
theorem Inv.inserted {t0 : Int} {w : World} (h : Inv t0 w) {a : TimerHeap.Act} {s : TimerHeap.Sys} (hs : TimerHeap.step w.sched a = .ok s) {id t : Nat} {x b : Int} (hm : Ev.tick id t x b ∈ s.trace) :
    ∃ now d p, Ev.inserted id t now d p ∈ s.trace := by
  obtain ⟨m, hm', ht, -⟩ := Props.C108_refines t0 (a :: w.done).reverse s (by rw [List.reverse_cons]; exact run_append _ _ _ h.run hs)
  rw [← ht] at hm ⊢
  exact Props.C32_inserted m hm' id t x b hm

theorem getElem?_snoc {α : Type} {l : List α} {x y : α} {n : Nat} (h : (l ++ [x])[n]? = some y) : l[n]? = some y ∨ n = l.length ∧ y = x := by
  rw [List.getElem?_append] at h
  split at h
  · exact .inl h
  · rename_i hn
    right
    cases hk : n - l.length with
    | zero => rw [hk] at h; simp at h; exact ⟨by omega, h.symm⟩
    | succ k => rw [hk] at h; simp at h

theorem inv {t0 : Int} {w : World} (h : Reachable t0 w) : Inv t0 w := by
  induction h with
  | init => exact ⟨rfl, fun _ => .init, nofun, nofun, nofun, nofun, nofun, nofun, fun _ _ _ => rfl, nofun, nofun⟩
  | @step w w' act _ hs ih =>
    cases act with
    | sched a =>
      simp only [step] at hs
      split at hs
      · rename_i hf
        split at hs
        · rename_i s hst; cases hs; exact inv_sched ih hst hf
        · cases hs
      · cases hs
    | easy i a =>
      simp only [step] at hs
      split at hs
      · rename_i hf
        split at hs
        · rename_i x hst
          cases hs
          have hne : ∀ p y, a ≠ .packet p y := by rintro p y rfl; cases hf
          have hlen := queues_length hst
          refine ⟨ih.run, fun j => ?_, ih.ids, ih.one, ih.ins, fun n id j q hl => ⟨?_, (ih.link n id j q hl).2⟩, ih.uniq, fun n id j q hl => ?_, fun j q hq => ?_, ih.clock, ih.pos⟩
          · simp only [setEnd]; split
            · exact .step (ih.easy i) hst
            · exact ih.easy j
          · have := (ih.link n id j q hl).1
            simp only [setEnd]; split
            · rename_i he; subst he; omega
            · exact this
          · rw [ih.all n id j q hl]
            simp only [setEnd]; split
            · rename_i he; subst he; exact (easy_keep hne hst q).symm
            · rfl
          · simp only [setEnd] at hq ⊢
            split at hq
            · rename_i he; subst he; rw [if_pos rfl, easy_keep hne hst q]; exact ih.fresh j q (by omega)
            · rename_i he; rw [if_neg he]; exact ih.fresh j q hq
        · cases hs
      · cases hs
    | start i delay period ago l =>
      simp only [step] at hs
      split at hs
      · rename_i s hst
        split at hs
        · cases hs; exact ih
        · rename_i hids
          split at hs
          · rename_i e hcr
            cases hs
            have hrun : TimerHeap.run { clock := t0 } (TimerHeap.Act.insert (2 * w.links.length) delay period ago l :: w.done).reverse = .ok s := by
              rw [List.reverse_cons]; exact run_append _ _ _ ih.run hst
            obtain ⟨hc, hq⟩ := sched_shape ih.heap hst
            rcases hq with ⟨-, hi⟩ | ⟨x, -, -, hi⟩ | ⟨t, d, p, ago', l', hact, hd0, hp0, hi, ht⟩ | ⟨x, hact, -⟩
            · exact absurd hi hids
            · exact absurd hi hids
            · cases hact
              refine ⟨hrun, fun j => ?_, ?_, ?_, ?_, ?_, ?_, ?_, ?_, ?_, ?_⟩
              · simp only [setEnd]; split
                · exact .step (ih.easy i) hcr
                · exact ih.easy j
              · simp only [ht, hi]
                intro id t' now' d' p' hm
                rcases List.mem_cons.mp hm with hm | hm
                · cases hm; omega
                · have := ih.ids _ _ _ _ _ hm; omega
              · simp only [ht]
                intro id t1 n1 d1 p1 t2 n2 d2 p2 h1 h2
                rcases List.mem_cons.mp h1 with h1 | h1 <;> rcases List.mem_cons.mp h2 with h2 | h2
                · cases h1; cases h2; rfl
                · cases h1; exact absurd (ih.ids _ _ _ _ _ h2) (Nat.lt_irrefl _)
                · cases h2; exact absurd (ih.ids _ _ _ _ _ h1) (Nat.lt_irrefl _)
                · exact ih.one _ _ _ _ _ _ _ _ _ h1 h2
              · simp only [ht]
                intro id n n1 d1 p1 hm
                rcases List.mem_cons.mp hm with hm | hm
                · simp only [Ev.inserted.injEq] at hm
                  obtain ⟨rfl, hn, -⟩ := hm
                  have : n = w.links.length := by omega
                  subst this
                  exact ⟨i, (w.ends i).queues.length, by simp⟩
                · obtain ⟨i', q', hl⟩ := ih.ins _ _ _ _ _ hm
                  exact ⟨i', q', by rw [List.getElem?_append_left (List.getElem?_eq_some_iff.mp hl).1]; exact hl⟩
              · intro n id j q hl
                rcases getElem?_snoc hl with hl | ⟨rfl, hl2⟩
                · obtain ⟨h1, now, d, p, hm⟩ := ih.link n id j q hl
                  refine ⟨?_, now, d, p, by simp only [ht]; exact .tail _ hm⟩
                  simp only [setEnd]; split
                  · rename_i he; subst he; rw [create_length hcr]; omega
                  · exact h1
                · cases hl2
                  refine ⟨?_, _, _, _, by simp only [ht]; exact .head _⟩
                  simp only [setEnd, if_true]; rw [create_length hcr]; omega
              · intro n id m id' j q h1 h2
                rcases getElem?_snoc h1 with h1 | ⟨rfl, h3⟩ <;> rcases getElem?_snoc h2 with h2 | ⟨rfl, h4⟩
                · exact ih.uniq _ _ _ _ _ _ h1 h2
                · cases h4; exact absurd (ih.link _ _ _ _ h1).1 (Nat.lt_irrefl _)
                · cases h3; exact absurd (ih.link _ _ _ _ h2).1 (Nat.lt_irrefl _)
                · rfl
              · intro n id j q hl
                have htk : ticks id s.trace = ticks id w.sched.trace := by rw [ht]; rfl
                rcases getElem?_snoc hl with hl | ⟨rfl, hl2⟩
                · rw [htk, ih.all n id j q hl]
                  simp only [setEnd]; split
                  · rename_i he; subst he; exact (easy_keep (by simp) hcr q).symm
                  · rfl
                · cases hl2
                  simp only [setEnd, if_true]
                  rw [htk, easy_keep (by simp) hcr, ih.fresh i _ (Nat.le_refl _)]
                  refine ticks_none fun k a b hm => ?_
                  obtain ⟨now, d, p, hins⟩ := ih.inserted hst (by rw [ht]; exact .tail _ hm)
                  rw [ht] at hins
                  rcases List.mem_cons.mp hins with hins | hins
                  · have hk : k = 2 * w.links.length := by cases hins; rfl
                    have h3 := Props.C108_refines t0 w.done.reverse w.sched ih.run
                    obtain ⟨m, hm', hmt, -⟩ := h3
                    obtain ⟨n1, d1, p1, h4⟩ := Props.C32_inserted m hm' _ _ _ _ (by rw [hmt]; exact hm)
                    rw [hmt] at h4
                    exact absurd (ih.ids _ _ _ _ _ h4) (Nat.lt_irrefl _)
                  · exact absurd (ih.ids _ _ _ _ _ hins) (Nat.lt_irrefl _)
              · intro j q hq
                simp only [setEnd] at hq ⊢
                split at hq
                · rename_i he; subst he; rw [if_pos rfl, easy_keep (by simp) hcr q]; exact ih.fresh j q (by rw [create_length hcr] at hq; omega)
                · rename_i he; rw [if_neg he]; exact ih.fresh j q hq
              · simp only [ht]
                intro id t a b hm
                rcases List.mem_cons.mp hm with hm | hm
                · cases hm
                · exact Int.le_trans (ih.clock _ _ _ _ hm) hc
              · simp only [ht]
                intro id t' now' d' p' hm
                rcases List.mem_cons.mp hm with hm | hm
                · cases hm; exact ⟨hd0, hp0⟩
                · exact ih.pos _ _ _ _ _ hm
            · cases hact
          · cases hs
      · cases hs
    | call =>
      simp only [step] at hs
      split at hs
      · rename_i e hth
        split at hs
        · rename_i s hst
          have hrun : TimerHeap.run { clock := t0 } (TimerHeap.Act.call :: w.done).reverse = .ok s := by rw [List.reverse_cons]; exact run_append _ _ _ ih.run hst
          obtain ⟨hc, hq⟩ := sched_shape ih.heap hst
          have hcall : s.ids = w.sched.ids ∧ s.clock = w.sched.clock ∧ s.trace = .tick e.id e.timer e.next w.sched.clock :: w.sched.trace := by
            simp only [TimerHeap.step, hth] at hst
            cases hst; exact ⟨rfl, rfl, rfl⟩
          obtain ⟨hi, hck, ht⟩ := hcall
          have hin : ∀ id t now d p, Ev.inserted id t now d p ∈ s.trace → Ev.inserted id t now d p ∈ w.sched.trace := by
            intro id t now d p hm
            rw [ht] at hm
            rcases List.mem_cons.mp hm with hm | hm
            · cases hm
            · exact hm
          obtain ⟨now0, d0, p0, hins0⟩ := ih.inserted hst (id := e.id) (t := e.timer) (x := e.next) (b := w.sched.clock) (by rw [ht]; exact .head _)
          have hins0 := hin _ _ _ _ _ hins0
          have hcl : ∀ id t a b, Ev.tick id t a b ∈ s.trace → b ≤ s.clock := by
            intro id t a b hm
            rw [ht] at hm
            rw [hck]
            rcases List.mem_cons.mp hm with hm | hm
            · cases hm; exact Int.le_refl _
            · exact ih.clock _ _ _ _ hm
          have hlk : ∀ (n id i q : Nat), w.links[n]? = some (id, i, q) → ∃ now d p, Ev.inserted id (2 * n) now d p ∈ s.trace := by
            intro n id i q hl
            obtain ⟨-, now, d, p, hm⟩ := ih.link n id i q hl
            exact ⟨now, d, p, by rw [ht]; exact .tail _ hm⟩
          -- only the timer with this number gets the tick
          have htk : ∀ (n id i q : Nat), w.links[n]? = some (id, i, q) → ticks id s.trace = ticks id w.sched.trace ++ if e.timer = 2 * n then [e.next] else [] := by
            intro n id i q hl
            obtain ⟨-, now, d, p, hm⟩ := ih.link n id i q hl
            rw [ht]
            simp only [ticks]
            by_cases hid : e.id = id
            · subst hid
              rw [if_pos rfl, if_pos (ih.one _ _ _ _ _ _ _ _ _ hins0 hm)]
            · rw [if_neg hid]
              by_cases hn : e.timer = 2 * n
              · rw [hn] at hins0
                obtain ⟨i', q', hl'⟩ := ih.ins _ _ _ _ _ hins0
                rw [hl] at hl'
                cases hl'
                exact absurd rfl hid
              · rw [if_neg hn, List.append_nil]
          split at hs
          · rename_i heven
            split at hs
            · rename_i hl
              rename_i id0 i q
              split at hs
              · rename_i x hpk
                cases hs
                have hlt := packet_lt hpk
                have hlen := queues_length hpk
                refine ⟨hrun, fun j => ?_, fun id t now d p hm => hi ▸ ih.ids _ _ _ _ _ (hin _ _ _ _ _ hm), fun id t now d p t' now' d' p' h1 h2 => ih.one _ _ _ _ _ _ _ _ _ (hin _ _ _ _ _ h1) (hin _ _ _ _ _ h2),
                  fun id n now d p hm => ih.ins _ _ _ _ _ (hin _ _ _ _ _ hm), fun n id j p hl' => ⟨?_, hlk n id j p hl'⟩, ih.uniq, fun n id j p hl' => ?_, fun j p hp => ?_, hcl, fun id t now d p hm => ih.pos _ _ _ _ _ (hin _ _ _ _ _ hm)⟩
                · simp only [setEnd]; split
                  · exact .step (ih.easy i) hpk
                  · exact ih.easy j
                · have := (ih.link n id j p hl').1
                  simp only [setEnd]; split
                  · rename_i he; subst he; omega
                  · exact this
                · simp only
                  rw [htk n id j p hl', ih.all n id j p hl']
                  simp only [setEnd]
                  by_cases hj : j = i
                  · subst hj
                    rw [if_pos rfl, easy_packet hpk p]
                    by_cases hp : q = p
                    · subst hp
                      have := ih.uniq _ _ _ _ _ _ hl hl'
                      rw [if_pos rfl, if_pos (by omega)]
                    · rw [if_neg hp, if_neg]
                      intro hn
                      have : e.timer / 2 = n := by omega
                      rw [this, hl'] at hl
                      cases hl
                      exact hp rfl
                  · rw [if_neg hj, if_neg, List.append_nil]
                    intro hn
                    have : e.timer / 2 = n := by omega
                    rw [this, hl'] at hl
                    cases hl
                    exact hj rfl
                · simp only [setEnd] at hp ⊢
                  split at hp
                  · rename_i he; subst he; rw [if_pos rfl, easy_packet hpk p, ih.fresh j p (by omega), if_neg (by omega)]; rfl
                  · rename_i he; rw [if_neg he]; exact ih.fresh j p hp
              · cases hs
            · cases hs
          · rename_i hodd
            cases hs
            refine ⟨hrun, ih.easy, fun id t now d p hm => hi ▸ ih.ids _ _ _ _ _ (hin _ _ _ _ _ hm), fun id t now d p t' now' d' p' h1 h2 => ih.one _ _ _ _ _ _ _ _ _ (hin _ _ _ _ _ h1) (hin _ _ _ _ _ h2),
              fun id n now d p hm => ih.ins _ _ _ _ _ (hin _ _ _ _ _ hm), fun n id j p hl' => ⟨(ih.link n id j p hl').1, hlk n id j p hl'⟩, ih.uniq, fun n id j p hl' => ?_, ih.fresh, hcl, fun id t now d p hm => ih.pos _ _ _ _ _ (hin _ _ _ _ _ hm)⟩
            simp only
            rw [htk n id j p hl', if_neg (by omega), List.append_nil]
            exact ih.all n id j p hl'
        · cases hs
      · cases hs

end Verif.EasyTimer
