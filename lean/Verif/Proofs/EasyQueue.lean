import Verif.Spec.EasyQueue
namespace Verif.EasyQueue

def Hist : List (Ev α) → Prop
  | [] => True
  | e :: t => Lawful t e ∧ Hist t

theorem Hist.at : ∀ {post pre : List (Ev α)} {e : Ev α}, Hist (post ++ e :: pre) → Lawful pre e
  | [], _, _, h => h.1
  | _ :: _, _, _, h => Hist.at h.2

theorem setFib_get (s : Sys α) (f : Nat) (st : FSt) (g : Nat) : (setFib s f st)[g]? = if f = g then (s.fibs[g]?).map (fun x => { x with st := st }) else s.fibs[g]? := by
  unfold setFib
  rw [List.getElem?_modify]
  split
  · rfl
  · simp

theorem setFib_some {s : Sys α} {f : Nat} {st : FSt} {x : Fiber} (hx : s.fibs[f]? = some x) {g : Nat} {y : Fiber} (h : (setFib s f st)[g]? = some y) :
    (f = g ∧ y = { x with st := st }) ∨ (f ≠ g ∧ s.fibs[g]? = some y) := by
  rw [setFib_get] at h
  split at h
  · rename_i he
    subst he
    rw [hx] at h
    simp only [Option.map_some, Option.some.injEq] at h
    exact Or.inl ⟨rfl, h.symm⟩
  · exact Or.inr ⟨by assumption, h⟩

theorem setFib_self {s : Sys α} {f : Nat} {st : FSt} {x : Fiber} (hx : s.fibs[f]? = some x) : (setFib s f st)[f]? = some { x with st := st } := by
  rw [setFib_get, if_pos rfl, hx]; rfl

theorem setFib_other {s : Sys α} {f g : Nat} {st : FSt} (h : f ≠ g) : (setFib s f st)[g]? = s.fibs[g]? := by rw [setFib_get, if_neg h]

def Held (fibs : List Fiber) (q : Nat) : Prop := ∃ (f : Nat) (y : Fiber), fibs[f]? = some y ∧ y.qid = q ∧ y.st.holds = true

theorem any_holds {l : List Fiber} {q : Nat} : (l.any fun x => x.qid == q && x.st.holds) = true ↔ Held l q := by
  rw [List.any_eq_true]
  constructor
  · rintro ⟨x, hx, hc⟩
    obtain ⟨f, hf⟩ := List.mem_iff_getElem?.mp hx
    simp only [Bool.and_eq_true, beq_iff_eq] at hc
    exact ⟨f, x, hf, hc⟩
  · rintro ⟨f, x, hf, hq, hh⟩
    exact ⟨x, List.mem_iff_getElem?.mpr ⟨f, hf⟩, by simp [hq, hh]⟩

theorem net_any {o : Option (Nat × α)} {q : Nat} : (o.any (·.1 == q)) = true ↔ ∃ x, o = some (q, x) := by
  cases o with
  | none => simp
  | some v =>
    obtain ⟨p, x⟩ := v
    simp

theorem queueAlive_iff (s : Sys α) (q : Nat) : queueAlive s q = true ↔ s.ownQ = some q ∨ s.user = .created q ∨ (∃ x, s.net = some (q, x)) ∨ Held s.fibs q := by
  unfold queueAlive
  rw [Bool.or_eq_true, Bool.or_eq_true, Bool.or_eq_true, any_holds, net_any, beq_iff_eq, beq_iff_eq, or_assoc, or_assoc]

theorem socketAlive_iff (s : Sys α) (q : Nat) : socketAlive s q = true ↔ s.ownS = some q ∨ s.user = .created q ∨ s.user = .assigned q ∨ (∃ x, s.net = some (q, x)) ∨ Held s.fibs q := by
  unfold socketAlive
  rw [Bool.or_eq_true, Bool.or_eq_true, Bool.or_eq_true, Bool.or_eq_true, any_holds, net_any, beq_iff_eq, beq_iff_eq, beq_iff_eq, or_assoc, or_assoc, or_assoc]

/-- There is a fiber for a queue. -/
def Live (fibs : List Fiber) (q : Nat) : Prop := ∃ (f : Nat) (y : Fiber), fibs[f]? = some y ∧ y.qid = q ∧ y.st ≠ .done

structure Inv {α : Type} (s : Sys α) : Prop where
  fib : ∀ (f : Nat) (y : Fiber), s.fibs[f]? = some y → y.qid < s.queues.length
  user : ∀ q, s.user = .created q ∨ s.user = .assigned q → q < s.queues.length
  ownLt : ∀ q, s.ownQ = some q → q < s.queues.length
  netLt : ∀ q x, s.net = some (q, x) → q < s.queues.length
  uniq : ∀ (f : Nat) (x : Fiber) (g : Nat) (y : Fiber), s.fibs[f]? = some x → s.fibs[g]? = some y → x.qid = y.qid → x.st ≠ .done → y.st ≠ .done → f = g
  act : ∀ (q : Nat) (qu : Queue α), s.queues[q]? = some qu → Live s.fibs q → qu.active = true
  back : ∀ (q : Nat) (qu : Queue α), s.queues[q]? = some qu → qu.active = true → queueAlive s q = true → Live s.fibs q
  pend : ∀ (q : Nat) (qu : Queue α), s.queues[q]? = some qu → qu.packets ≠ [] → qu.active = true
  seq : ∀ (q : Nat) (qu : Queue α), s.queues[q]? = some qu → arrivals s.trace q = calls s.trace q ++ qu.packets
  fresh : ∀ q, s.queues.length ≤ q → arrivals s.trace q = [] ∧ calls s.trace q = [] ∧ running s.trace q = none
  run : ∀ q f, running s.trace q = some f ↔ ∃ (y : Fiber), s.fibs[f]? = some y ∧ y.qid = q ∧ y.st = .calling
  own : ∀ q, q < s.queues.length → s.ownQ = some q ∨ s.user = .created q ∨ .stopped q ∈ s.trace
  sock : ∀ q, s.ownQ = some q → s.ownS = some q ∨ s.user = .assigned q
  asg : ∀ q, s.user = .assigned q → s.ownQ = some q
  stp : s.user = .stopping → s.ownQ = none
  hist : Hist s.trace

/-- A fiber that exists finds the socket if it finds the queue. -/
theorem Inv.socket {s : Sys α} (hi : Inv s) {q : Nat} (h : queueAlive s q = true) : socketAlive s q = true := by
  rw [queueAlive_iff] at h
  rw [socketAlive_iff]
  rcases h with h | h | h | h
  · rcases hi.sock q h with h | h
    · exact Or.inl h
    · exact Or.inr (Or.inr (Or.inl h))
  · exact Or.inr (Or.inl h)
  · exact Or.inr (Or.inr (Or.inr (Or.inl h)))
  · exact Or.inr (Or.inr (Or.inr (Or.inr h)))

theorem inv_init : Inv ({} : Sys α) := by
  constructor <;> simp [arrivals, calls, running, Hist]

theorem inv_create {s s' : Sys α} (hi : Inv s) (hs : step s .create = some s') : Inv s' := by
  simp only [step] at hs
  split at hs <;> simp only [Option.some.injEq, reduceCtorEq] at hs
  rename_i hu
  subst hs
  have hget : ∀ q qu, (s.queues ++ [({} : Queue α)])[q]? = some qu → (q < s.queues.length ∧ s.queues[q]? = some qu) ∨ (q = s.queues.length ∧ qu = {}) := by
    intro q qu h
    rw [List.getElem?_append] at h
    split at h
    · exact Or.inl ⟨by assumption, h⟩
    · right
      have : q - s.queues.length = 0 := by
        cases hq : q - s.queues.length with
        | zero => rfl
        | succ n => rw [hq] at h; simp at h
      rw [this] at h
      exact ⟨by omega, by simpa using h.symm⟩
  have hnl : ¬ Live s.fibs s.queues.length := fun ⟨f, y, hf, hq, _⟩ => by have := hi.fib f y hf; omega
  have hfr := hi.fresh s.queues.length (Nat.le_refl _)
  constructor
  case fib => intro f y h; have := hi.fib f y h; simp; omega
  case user => intro q h; simp at h; simp; omega
  case ownLt => intro q h; have := hi.ownLt q h; simp; omega
  case netLt => intro q x h; have := hi.netLt q x h; simp; omega
  case uniq => exact hi.uniq
  case act =>
    intro q qu h hl
    rcases hget q qu h with ⟨_, h⟩ | ⟨rfl, _⟩
    · exact hi.act q qu h hl
    · exact absurd hl hnl
  case back =>
    intro q qu h ha hal
    rcases hget q qu h with ⟨hlt, h⟩ | ⟨rfl, rfl⟩
    · refine hi.back q qu h ha ?_
      rw [queueAlive_iff] at hal ⊢
      rcases hal with hal | hal | hal | hal
      · exact Or.inl hal
      · simp at hal; omega
      · exact Or.inr (Or.inr (Or.inl hal))
      · exact Or.inr (Or.inr (Or.inr hal))
    · cases ha
  case pend =>
    intro q qu h hp
    rcases hget q qu h with ⟨_, h⟩ | ⟨rfl, rfl⟩
    · exact hi.pend q qu h hp
    · exact absurd rfl hp
  case seq =>
    intro q qu h
    rcases hget q qu h with ⟨_, h⟩ | ⟨rfl, rfl⟩
    · exact hi.seq q qu h
    · show arrivals s.trace _ = calls s.trace _ ++ []
      rw [hfr.1, hfr.2.1]; rfl
  case fresh => intro q h; simp at h; exact hi.fresh q (by omega)
  case run => exact hi.run
  case own =>
    intro q h
    by_cases he : q = s.queues.length
    · subst he; exact Or.inr (Or.inl rfl)
    · simp at h
      rcases hi.own q (by omega) with h | h | h
      · exact Or.inl h
      · rw [hu] at h; cases h
      · exact Or.inr (Or.inr (.tail _ h))
  case sock =>
    intro q h
    rcases hi.sock q h with h | h
    · exact Or.inl h
    · rw [hu] at h; cases h
  case asg => intro q h; cases h
  case stp => intro h; cases h
  case hist => exact ⟨trivial, hi.hist⟩

theorem setOwn_fields (s : Sys α) (o : Option Nat) : (setOwn s o).queues = s.queues ∧ (setOwn s o).ownQ = o ∧ (setOwn s o).ownS = s.ownS ∧ (setOwn s o).net = s.net ∧ (setOwn s o).fibs = s.fibs ∧
    (setOwn s o).cur = s.cur := by
  unfold setOwn; split <;> exact ⟨rfl, rfl, rfl, rfl, rfl, rfl⟩

theorem setOwn_trace {α : Type} (s : Sys α) (o : Option Nat) (q : Nat) : arrivals (setOwn s o).trace q = arrivals s.trace q ∧ calls (setOwn s o).trace q = calls s.trace q ∧
    running (setOwn s o).trace q = running s.trace q ∧ (Hist s.trace → Hist (setOwn s o).trace) ∧ (s.ownQ = some q → .stopped q ∈ (setOwn s o).trace) ∧ (.stopped q ∈ s.trace → .stopped q ∈ (setOwn s o).trace) := by
  unfold setOwn
  split
  · rename_i h; exact ⟨rfl, rfl, rfl, id, fun he => absurd (h.symm.trans he) (by simp), id⟩
  · rename_i p h
    refine ⟨rfl, rfl, rfl, fun h => ⟨trivial, h⟩, fun he => ?_, fun h => .tail _ h⟩
    rw [h] at he
    cases he
    exact .head _

/-- The user thread changes what it refers to; no queue becomes alive. -/
theorem inv_own {s s' : Sys α} (hi : Inv s) (o : Option Nat) (hq : s'.queues = s.queues) (hn : s'.net = s.net) (hf : s'.fibs = s.fibs)
    (ht : s'.trace = (setOwn s o).trace ∨ (s'.trace = s.trace ∧ s'.ownQ = s.ownQ))
    (halive : ∀ q, s'.ownQ = some q ∨ s'.user = .created q → s.ownQ = some q ∨ s.user = .created q)
    (hu : ∀ q, s'.user = .created q ∨ s'.user = .assigned q → s.user = .created q ∨ s.user = .assigned q)
    (hown : ∀ q, s.ownQ = some q ∨ s.user = .created q → s'.ownQ = some q ∨ s'.user = .created q ∨ (s'.trace = (setOwn s o).trace ∧ s.ownQ = some q))
    (hsock : ∀ q, s'.ownQ = some q → s'.ownS = some q ∨ s'.user = .assigned q)
    (hasg : ∀ q, s'.user = .assigned q → s'.ownQ = some q) (hstp : s'.user = .stopping → s'.ownQ = none) : Inv s' := by
  have htr : ∀ q, arrivals s'.trace q = arrivals s.trace q ∧ calls s'.trace q = calls s.trace q ∧ running s'.trace q = running s.trace q ∧ (.stopped q ∈ s.trace → .stopped q ∈ s'.trace) := by
    intro q
    rcases ht with ht | ⟨ht, _⟩
    · rw [ht]; have := setOwn_trace s o q; exact ⟨this.1, this.2.1, this.2.2.1, this.2.2.2.2.2⟩
    · rw [ht]; exact ⟨rfl, rfl, rfl, id⟩
  constructor
  case fib => rw [hf, hq]; exact hi.fib
  case user => intro q h; rw [hq]; exact hi.user q (hu q h)
  case ownLt =>
    intro q h; rw [hq]
    rcases halive q (Or.inl h) with h | h
    · exact hi.ownLt q h
    · exact hi.user q (Or.inl h)
  case netLt => rw [hn, hq]; exact hi.netLt
  case uniq => rw [hf]; exact hi.uniq
  case act => rw [hf, hq]; exact hi.act
  case back =>
    intro q qu h ha hal
    rw [hf]
    rw [hq] at h
    refine hi.back q qu h ha ?_
    rw [queueAlive_iff] at hal ⊢
    rw [hn, hf] at hal
    rcases hal with hal | hal | hal | hal
    · rcases halive q (Or.inl hal) with h | h
      · exact Or.inl h
      · exact Or.inr (Or.inl h)
    · rcases halive q (Or.inr hal) with h | h
      · exact Or.inl h
      · exact Or.inr (Or.inl h)
    · exact Or.inr (Or.inr (Or.inl hal))
    · exact Or.inr (Or.inr (Or.inr hal))
  case pend => rw [hq]; exact hi.pend
  case seq => intro q qu h; rw [hq] at h; rw [(htr q).1, (htr q).2.1]; exact hi.seq q qu h
  case fresh => intro q h; rw [hq] at h; rw [(htr q).1, (htr q).2.1, (htr q).2.2.1]; exact hi.fresh q h
  case run => intro q f; rw [(htr q).2.2.1, hf]; exact hi.run q f
  case own =>
    intro q h
    rw [hq] at h
    have h2 : s.ownQ = some q ∨ s.user = .created q → s'.ownQ = some q ∨ s'.user = .created q ∨ .stopped q ∈ s'.trace := fun h => by
      rcases hown q h with h | h | ⟨h, h'⟩
      · exact Or.inl h
      · exact Or.inr (Or.inl h)
      · rw [h]; exact Or.inr (Or.inr ((setOwn_trace s o q).2.2.2.2.1 h'))
    rcases hi.own q h with h | h | h
    · exact h2 (Or.inl h)
    · exact h2 (Or.inr h)
    · exact Or.inr (Or.inr ((htr q).2.2.2 h))
  case sock => exact hsock
  case asg => exact hasg
  case stp => exact hstp
  case hist =>
    rcases ht with ht | ⟨ht, _⟩
    · rw [ht]; exact (setOwn_trace s o 0).2.2.2.1 hi.hist
    · rw [ht]; exact hi.hist

theorem inv_assign {s s' : Sys α} (hi : Inv s) (hs : step s .assign = some s') : Inv s' := by
  simp only [step] at hs
  split at hs
  · rename_i q hu
    simp only [Option.some.injEq] at hs
    have hf := setOwn_fields s (some q)
    have e1 : s'.ownQ = some q := by rw [← hs]; exact hf.2.1
    have e2 : s'.user = .assigned q := by rw [← hs]
    refine inv_own hi (some q) (by rw [← hs]; exact hf.1) (by rw [← hs]; exact hf.2.2.2.1) (by rw [← hs]; exact hf.2.2.2.2.1) (Or.inl (by rw [← hs])) ?_ ?_ ?_ ?_ ?_ ?_
    · intro p h
      rw [e1, e2] at h
      simp at h
      subst h; exact Or.inr hu
    · intro p h
      rw [e2] at h
      simp at h
      subst h; exact Or.inl hu
    · intro p h
      rcases h with h | h
      · exact Or.inr (Or.inr ⟨by rw [← hs], h⟩)
      · rw [hu] at h; cases h; exact Or.inl e1
    · intro p h
      rw [e1] at h
      cases h; exact Or.inr e2
    · intro p h
      rw [e2] at h; cases h; exact e1
    · intro h; rw [e2] at h; cases h
  · rename_i q hu
    simp only [Option.some.injEq] at hs
    subst hs
    refine inv_own hi none rfl rfl rfl (Or.inr ⟨rfl, rfl⟩) ?_ ?_ ?_ ?_ nofun nofun
    · intro p h
      rcases h with h | h
      · exact Or.inl h
      · cases h
    · intro p h; rcases h with h | h <;> cases h
    · intro p h
      rcases h with h | h
      · exact Or.inl h
      · rw [hu] at h; cases h
    · intro p h
      rw [← hi.asg q hu]; exact Or.inl h
  · cases hs

theorem inv_stop {s s' : Sys α} (hi : Inv s) (hs : step s .stop = some s') : Inv s' := by
  simp only [step] at hs
  split at hs
  · rename_i hu
    simp only [Option.some.injEq] at hs
    have hf := setOwn_fields s none
    have e1 : s'.ownQ = none := by rw [← hs]; exact hf.2.1
    have e2 : s'.user = .stopping := by rw [← hs]
    refine inv_own hi none (by rw [← hs]; exact hf.1) (by rw [← hs]; exact hf.2.2.2.1) (by rw [← hs]; exact hf.2.2.2.2.1) (Or.inl (by rw [← hs])) ?_ ?_ ?_ ?_ ?_ ?_
    · intro p h; rw [e1, e2] at h; simp at h
    · intro p h; rw [e2] at h; simp at h
    · intro p h
      rcases h with h | h
      · exact Or.inr (Or.inr ⟨by rw [← hs], h⟩)
      · rw [hu] at h; cases h
    · intro p h; rw [e1] at h; cases h
    · intro p h; rw [e2] at h; cases h
    · intro _; exact e1
  · rename_i hu
    simp only [Option.some.injEq] at hs
    subst hs
    refine inv_own hi none rfl rfl rfl (Or.inr ⟨rfl, rfl⟩) ?_ ?_ ?_ ?_ nofun nofun
    · intro p h
      rcases h with h | h
      · exact Or.inl h
      · cases h
    · intro p h; rcases h with h | h <;> cases h
    · intro p h
      rcases h with h | h
      · exact Or.inl h
      · rw [hu] at h; cases h
    · intro p h
      have h2 : some p = none := h.symm.trans (hi.stp hu)
      cases h2
  · cases hs

theorem inv_packet {s s' : Sys α} {q : Nat} {x : α} (hi : Inv s) (hs : step s (.packet q x) = some s') : Inv s' := by
  simp only [step] at hs
  split at hs
  · rename_i hq
    split at hs
    · rename_i hal
      simp only [Option.some.injEq] at hs
      subst hs
      have hb : ∀ p, queueAlive { s with net := some (q, x) } p = true → queueAlive s p = true := by
        intro p h
        rw [queueAlive_iff] at h
        rcases h with h | h | ⟨y, h⟩ | h
        · rw [queueAlive_iff]; exact Or.inl h
        · rw [queueAlive_iff]; exact Or.inr (Or.inl h)
        · cases h; exact hal
        · rw [queueAlive_iff]; exact Or.inr (Or.inr (Or.inr h))
      exact ⟨hi.fib, hi.user, hi.ownLt, fun p y h => by cases h; exact hq.2, hi.uniq, hi.act, fun p qu h ha hp => hi.back p qu h ha (hb p hp), hi.pend, hi.seq, hi.fresh, hi.run, hi.own, hi.sock, hi.asg, hi.stp,
        hi.hist⟩
    · rename_i hal
      simp only [Option.some.injEq] at hs
      subst hs
      refine ⟨hi.fib, hi.user, hi.ownLt, hi.netLt, hi.uniq, hi.act, hi.back, hi.pend, hi.seq, hi.fresh, hi.run, ?_, hi.sock, hi.asg, hi.stp, ?_, hi.hist⟩
      · intro p hp
        rcases hi.own p hp with h | h | h
        · exact Or.inl h
        · exact Or.inr (Or.inl h)
        · exact Or.inr (Or.inr (.tail _ h))
      · rcases hi.own q hq.2 with h | h | h
        · exact absurd ((queueAlive_iff s q).mpr (Or.inl h)) hal
        · exact absurd ((queueAlive_iff s q).mpr (Or.inr (Or.inl h))) hal
        · exact h
  · cases hs

theorem set_some {l : List β} {q p : Nat} {a b : β} (h : (l.set q a)[p]? = some b) : (p = q ∧ b = a) ∨ (p ≠ q ∧ l[p]? = some b) := by
  rw [List.getElem?_set] at h
  split at h
  · split at h
    · exact Or.inl ⟨by omega, by simpa using h.symm⟩
    · cases h
  · exact Or.inr ⟨by omega, h⟩

theorem inv_push {s s' : Sys α} {fail : Fail} (hi : Inv s) (hs : step s (.push fail) = some s') : Inv s' := by
  simp only [step] at hs
  split at hs
  · rename_i q x hn
    unfold push at hs
    split at hs
    · cases hs
    · rename_i qu hqu
      have hal : queueAlive s q = true := (queueAlive_iff s q).mpr (Or.inr (Or.inr (Or.inl ⟨x, hn⟩)))
      have hlt := hi.netLt q x hn
      -- what becomes of fibers
      have key : ∀ (fibs : List Fiber), fibs = (if qu.active then s.fibs else s.fibs ++ [{ qid := q }]) →
          (∀ (f : Nat) (y : Fiber), fibs[f]? = some y → s.fibs[f]? = some y ∨ (y = { qid := q } ∧ ¬ Live s.fibs q ∧ f = s.fibs.length)) ∧
          (∀ (f : Nat) (y : Fiber), s.fibs[f]? = some y → fibs[f]? = some y) ∧ Live fibs q := by
        intro fibs hf
        cases ha : qu.active with
        | true =>
          rw [ha] at hf
          simp only [if_true] at hf
          subst hf
          exact ⟨fun f y h => Or.inl h, fun f y h => h, hi.back q qu hqu ha hal⟩
        | false =>
          rw [ha] at hf
          simp only [Bool.false_eq_true, if_false] at hf
          subst hf
          have hnl : ¬ Live s.fibs q := fun h => by rw [hi.act q qu hqu h] at ha; cases ha
          refine ⟨fun f y h => ?_, fun f y h => ?_, ⟨s.fibs.length, { qid := q }, by simp, rfl, by simp⟩⟩
          · rw [List.getElem?_append] at h
            split at h
            · exact Or.inl h
            · right
              have : f - s.fibs.length = 0 := by
                cases hq : f - s.fibs.length with
                | zero => rfl
                | succ n => rw [hq] at h; simp at h
              rw [this] at h
              exact ⟨by simpa using h.symm, hnl, by omega⟩
          · rw [List.getElem?_append_left (by exact (List.getElem?_eq_some_iff.mp h).1)]; exact h
      have main : ∀ (fibs : List Fiber) (packets : List α) (e : Ev α), fibs = (if qu.active then s.fibs else s.fibs ++ [{ qid := q }]) →
          ((e = .failed q x ∧ packets = qu.packets) ∨ (e = .arrived q x ∧ packets = qu.packets ++ [x])) →
          Inv { s with net := none, fibs := fibs, queues := s.queues.set q { packets := packets, active := true }, trace := e :: s.trace } := by
        intro fibs packets e hf he
        obtain ⟨k1, k2, k3⟩ := key fibs hf
        have hcalls : ∀ p, calls (e :: s.trace) p = calls s.trace p ∧ running (e :: s.trace) p = running s.trace p ∧
            arrivals (e :: s.trace) p = arrivals s.trace p ++ (if p = q then packets.drop qu.packets.length else []) := by
          intro p
          rcases he with ⟨rfl, rfl⟩ | ⟨rfl, rfl⟩
          · refine ⟨rfl, rfl, ?_⟩
            simp [arrivals]
          · refine ⟨rfl, rfl, ?_⟩
            simp only [arrivals]
            by_cases hpq : p = q
            · subst hpq; simp
            · rw [if_neg (fun h => hpq h.symm), if_neg hpq, List.append_nil]
        have hpk : qu.packets ++ packets.drop qu.packets.length = packets := by
          rcases he with ⟨_, rfl⟩ | ⟨_, rfl⟩ <;> simp
        constructor
        case fib =>
          intro f y h
          simp only [List.length_set]
          rcases k1 f y h with h | ⟨rfl, _⟩
          · exact hi.fib f y h
          · exact hlt
        case user => intro p h; simp only [List.length_set]; exact hi.user p h
        case ownLt => intro p h; simp only [List.length_set]; exact hi.ownLt p h
        case netLt => intro p y h; cases h
        case uniq =>
          intro f y g z hy hz hq hdy hdz
          rcases k1 f y hy with hy | ⟨rfl, hnl, hf⟩ <;> rcases k1 g z hz with hz | ⟨rfl, hnl', hg⟩
          · exact hi.uniq f y g z hy hz hq hdy hdz
          · exact absurd ⟨f, y, hy, hq, hdy⟩ hnl'
          · exact absurd ⟨g, z, hz, hq.symm, hdz⟩ hnl
          · omega
        case act =>
          intro p qu' h hl
          rcases set_some h with ⟨rfl, rfl⟩ | ⟨hne, h⟩
          · rfl
          · refine hi.act p qu' h ?_
            obtain ⟨f, y, hf, hq, hd⟩ := hl
            rcases k1 f y hf with hf | ⟨rfl, _⟩
            · exact ⟨f, y, hf, hq, hd⟩
            · exact absurd hq.symm hne
        case back =>
          intro p qu' h ha hal'
          rcases set_some h with ⟨rfl, rfl⟩ | ⟨hne, h⟩
          · exact k3
          · have : queueAlive s p = true := by
              rw [queueAlive_iff] at hal' ⊢
              rcases hal' with hp | hp | ⟨y, hp⟩ | ⟨f, y, hf, hq, hh⟩
              · exact Or.inl hp
              · exact Or.inr (Or.inl hp)
              · cases hp
              · rcases k1 f y hf with hf | ⟨rfl, _⟩
                · exact Or.inr (Or.inr (Or.inr ⟨f, y, hf, hq, hh⟩))
                · cases hh
            obtain ⟨f, y, hf, hq, hd⟩ := hi.back p qu' h ha this
            exact ⟨f, y, k2 f y hf, hq, hd⟩
        case pend =>
          intro p qu' h hp
          rcases set_some h with ⟨rfl, rfl⟩ | ⟨hne, h⟩
          · rfl
          · exact hi.pend p qu' h hp
        case seq =>
          intro p qu' h
          show arrivals (e :: s.trace) p = calls (e :: s.trace) p ++ _
          rw [(hcalls p).1, (hcalls p).2.2]
          rcases set_some h with ⟨rfl, rfl⟩ | ⟨hne, h⟩
          · rw [if_pos rfl, hi.seq p qu hqu, List.append_assoc, hpk]
          · rw [if_neg hne, List.append_nil]; exact hi.seq p qu' h
        case fresh =>
          intro p h
          simp only [List.length_set] at h
          show arrivals (e :: s.trace) p = [] ∧ calls (e :: s.trace) p = [] ∧ running (e :: s.trace) p = none
          rw [(hcalls p).1, (hcalls p).2.1, (hcalls p).2.2, if_neg (by omega), List.append_nil]
          exact hi.fresh p h
        case run =>
          intro p f
          show running (e :: s.trace) p = some f ↔ _
          rw [(hcalls p).2.1, hi.run p f]
          constructor
          · rintro ⟨y, hy, hq, hc⟩; exact ⟨y, k2 f y hy, hq, hc⟩
          · rintro ⟨y, hy, hq, hc⟩
            rcases k1 f y hy with hy | ⟨rfl, _⟩
            · exact ⟨y, hy, hq, hc⟩
            · cases hc
        case own =>
          intro p h
          simp only [List.length_set] at h
          rcases hi.own p h with h | h | h
          · exact Or.inl h
          · exact Or.inr (Or.inl h)
          · exact Or.inr (Or.inr (.tail _ h))
        case sock => exact hi.sock
        case asg => exact hi.asg
        case stp => exact hi.stp
        case hist => rcases he with ⟨rfl, _⟩ | ⟨rfl, _⟩ <;> exact ⟨trivial, hi.hist⟩
      simp only at hs
      cases fail with
      | launch =>
        simp only at hs
        split at hs
        · cases hs
        · simp only [Option.some.injEq] at hs
          subst hs
          have hb : ∀ p, queueAlive { s with net := none, trace := .failed q x :: s.trace } p = true → queueAlive s p = true := by
            intro p h
            rw [queueAlive_iff] at h ⊢
            rcases h with h | h | ⟨y, h⟩ | h
            · exact Or.inl h
            · exact Or.inr (Or.inl h)
            · cases h
            · exact Or.inr (Or.inr (Or.inr h))
          refine ⟨hi.fib, hi.user, hi.ownLt, nofun, hi.uniq, hi.act, fun p qu h ha hp => hi.back p qu h ha (hb p hp), hi.pend, hi.seq, hi.fresh, hi.run, ?_, hi.sock, hi.asg, hi.stp, trivial, hi.hist⟩
          intro p hp
          rcases hi.own p hp with h | h | h
          · exact Or.inl h
          · exact Or.inr (Or.inl h)
          · exact Or.inr (Or.inr (.tail _ h))
      | push =>
        simp only [Option.some.injEq] at hs
        subst hs
        exact main _ qu.packets _ rfl (Or.inl ⟨rfl, rfl⟩)
      | no =>
        simp only [Option.some.injEq] at hs
        subst hs
        exact main _ _ _ rfl (Or.inr ⟨rfl, rfl⟩)
  · cases hs

/-- A fiber changes its state; the queue may change. -/
theorem inv_fiber {s : Sys α} {f : Nat} {x : Fiber} (hi : Inv s) (hf : s.fibs[f]? = some x) (hnd : x.st ≠ .done) (st : FSt) (cur : Option Nat) (qu qu' : Queue α) (hq : s.queues[x.qid]? = some qu)
    (t : List (Ev α)) (hstop : ∀ p, .stopped p ∈ s.trace → .stopped p ∈ t)
    (hhold : st.holds = true → queueAlive s x.qid = true)
    (hact : st = .done → queueAlive { s with fibs := setFib s f st } x.qid = true → qu'.active = false) (hact2 : st ≠ .done → qu'.active = qu.active) (hpk : qu'.packets ≠ [] → qu'.active = true)
    (hseq : arrivals t x.qid = calls t x.qid ++ qu'.packets)
    (hoth : ∀ p, p ≠ x.qid → arrivals t p = arrivals s.trace p ∧ calls t p = calls s.trace p ∧ running t p = running s.trace p)
    (hrun : ∀ g, running t x.qid = some g ↔ g = f ∧ st = .calling) (hh : Hist t) :
    Inv { s with fibs := setFib s f st, cur := cur, queues := s.queues.set x.qid qu', trace := t } := by
  have hlt := hi.fib f x hf
  constructor
  case fib =>
    intro g y h
    simp only [List.length_set]
    rcases setFib_some hf h with ⟨rfl, rfl⟩ | ⟨_, h⟩
    · exact hlt
    · exact hi.fib g y h
  case user => intro p h; simp only [List.length_set]; exact hi.user p h
  case ownLt => intro p h; simp only [List.length_set]; exact hi.ownLt p h
  case netLt => intro p y h; simp only [List.length_set]; exact hi.netLt p y h
  case uniq =>
    intro g y k z hy hz hq hdy hdz
    rcases setFib_some hf hy with ⟨rfl, rfl⟩ | ⟨hne, hy⟩ <;> rcases setFib_some hf hz with ⟨rfl, rfl⟩ | ⟨hne', hz⟩
    · rfl
    · exact hi.uniq f x k z hf hz hq hnd hdz
    · exact hi.uniq g y f x hy hf hq hdy hnd
    · exact hi.uniq g y k z hy hz hq hdy hdz
  case act =>
    intro p qx h hl
    rcases set_some h with ⟨rfl, rfl⟩ | ⟨hne, h⟩
    · by_cases hd : st = .done
      · obtain ⟨g, y, hy, hq, hdy⟩ := hl
        rcases setFib_some hf hy with ⟨rfl, rfl⟩ | ⟨hne, hy⟩
        · exact absurd hd hdy
        · exact absurd (hi.uniq f x g y hf hy hq.symm hnd hdy) hne
      · rw [hact2 hd]; exact hi.act _ qu hq ⟨f, x, hf, rfl, hnd⟩
    · obtain ⟨g, y, hy, hq, hdy⟩ := hl
      rcases setFib_some hf hy with ⟨rfl, rfl⟩ | ⟨_, hy⟩
      · exact absurd hq.symm hne
      · exact hi.act p qx h ⟨g, y, hy, hq, hdy⟩
  case back =>
    intro p qx h ha hal
    rcases set_some h with ⟨rfl, rfl⟩ | ⟨hne, h⟩
    · by_cases hd : st = .done
      · rw [hact hd hal] at ha; cases ha
      · exact ⟨f, _, setFib_self hf, rfl, hd⟩
    · have : queueAlive s p = true := by
        rw [queueAlive_iff] at hal ⊢
        rcases hal with hp | hp | hp | ⟨g, y, hy, hq, hh⟩
        · exact Or.inl hp
        · exact Or.inr (Or.inl hp)
        · exact Or.inr (Or.inr (Or.inl hp))
        · rcases setFib_some hf hy with ⟨rfl, rfl⟩ | ⟨_, hy⟩
          · exact absurd hq.symm hne
          · exact Or.inr (Or.inr (Or.inr ⟨g, y, hy, hq, hh⟩))
      obtain ⟨g, y, hy, hq, hd⟩ := hi.back p qx h ha this
      refine ⟨g, y, ?_, hq, hd⟩
      rw [setFib_other (fun he => hne ?_)]
      · exact hy
      · subst he; rw [hf] at hy; cases hy; exact hq.symm
  case pend =>
    intro p qx h hp
    rcases set_some h with ⟨rfl, rfl⟩ | ⟨hne, h⟩
    · exact hpk hp
    · exact hi.pend p qx h hp
  case seq =>
    intro p qx h
    show arrivals t p = calls t p ++ _
    rcases set_some h with ⟨rfl, rfl⟩ | ⟨hne, h⟩
    · exact hseq
    · rw [(hoth p hne).1, (hoth p hne).2.1]; exact hi.seq p qx h
  case fresh =>
    intro p h
    simp only [List.length_set] at h
    have := hoth p (by omega)
    show arrivals t p = [] ∧ calls t p = [] ∧ running t p = none
    rw [this.1, this.2.1, this.2.2]
    exact hi.fresh p h
  case run =>
    intro p g
    show running t p = some g ↔ ∃ (y : Fiber), (setFib s f st)[g]? = some y ∧ _
    by_cases hp : p = x.qid
    · subst hp
      rw [hrun g]
      constructor
      · rintro ⟨rfl, hc⟩; exact ⟨_, setFib_self hf, rfl, hc⟩
      · rintro ⟨y, hy, hq, hc⟩
        rcases setFib_some hf hy with ⟨rfl, rfl⟩ | ⟨hne, hy⟩
        · exact ⟨rfl, hc⟩
        · exact absurd (hi.uniq f x g y hf hy hq.symm hnd (by rw [hc]; simp)) hne
    · rw [(hoth p hp).2.2, hi.run p g]
      constructor
      · rintro ⟨y, hy, hq, hc⟩
        refine ⟨y, ?_, hq, hc⟩
        rw [setFib_other (fun he => hp ?_)]
        · exact hy
        · subst he; rw [hf] at hy; cases hy; exact hq.symm
      · rintro ⟨y, hy, hq, hc⟩
        rcases setFib_some hf hy with ⟨rfl, rfl⟩ | ⟨hne, hy⟩
        · exact absurd hq.symm hp
        · exact ⟨y, hy, hq, hc⟩
  case own =>
    intro p h
    simp only [List.length_set] at h
    rcases hi.own p h with h | h | h
    · exact Or.inl h
    · exact Or.inr (Or.inl h)
    · exact Or.inr (Or.inr (hstop p h))
  case sock => exact hi.sock
  case asg => exact hi.asg
  case stp => exact hi.stp
  case hist => exact hh

theorem set_same {l : List β} {q : Nat} {a : β} (h : l[q]? = some a) : l.set q a = l := by
  apply List.ext_getElem?
  intro i
  rw [List.getElem?_set]
  split
  · rename_i he
    subst he
    have hl := (List.getElem?_eq_some_iff.mp h).1
    rw [if_pos hl, h]
  · rfl

theorem Inv.getQ {s : Sys α} (hi : Inv s) {f : Nat} {x : Fiber} (h : s.fibs[f]? = some x) : ∃ qu, s.queues[x.qid]? = some qu :=
  ⟨_, List.getElem?_eq_getElem (hi.fib f x h)⟩

/-- Which fiber is in the callback, if the fiber of a queue is not. -/
theorem Inv.idle {s : Sys α} (hi : Inv s) {f : Nat} {x : Fiber} (h : s.fibs[f]? = some x) (hd : x.st ≠ .done) (hc : x.st ≠ .calling) : running s.trace x.qid = none := by
  cases hr : running s.trace x.qid with
  | none => rfl
  | some g =>
    obtain ⟨y, hy, hq, hcy⟩ := (hi.run _ g).mp hr
    have := hi.uniq g y f x hy h hq (by rw [hcy]; simp) hd
    subst this
    rw [h] at hy; cases hy
    exact absurd hcy hc

theorem inv_enter {s s' : Sys α} {f : Nat} (hi : Inv s) (hs : step s (.enter f) = some s') : Inv s' := by
  simp only [step] at hs
  split at hs
  · split at hs
    · rename_i x hx
      split at hs
      · rename_i hst
        obtain ⟨qu, hqu⟩ := hi.getQ hx
        have hnd : x.st ≠ .done := by rw [hst]; simp
        have hr := hi.idle hx hnd (by rw [hst]; simp)
        split at hs
        · rename_i hal
          simp only [Bool.and_eq_true] at hal
          simp only [Option.some.injEq] at hs
          have := inv_fiber hi hx hnd .entered s.cur qu qu hqu s.trace (fun _ h => h) (fun _ => hal.1) (fun h => by cases h) (fun _ => rfl) (hi.pend _ qu hqu) (hi.seq _ qu hqu) (fun _ _ => ⟨rfl, rfl, rfl⟩)
            (fun g => by rw [hr]; simp) hi.hist
          rw [set_same hqu] at this
          subst hs
          exact this
        · rename_i hal
          simp only [Option.some.injEq] at hs
          have hal : ¬ queueAlive s x.qid = true := fun h => hal (by rw [h, hi.socket h]; rfl)
          have := inv_fiber hi hx hnd .done none qu qu hqu s.trace (fun _ h => h) (fun h => by cases h)
            (fun _ h => by
              refine absurd ?_ hal
              rw [queueAlive_iff] at h ⊢
              rcases h with h | h | h | ⟨g, y, hy, hq, hh⟩
              · exact Or.inl h
              · exact Or.inr (Or.inl h)
              · exact Or.inr (Or.inr (Or.inl h))
              · rcases setFib_some hx hy with ⟨rfl, rfl⟩ | ⟨_, hy⟩
                · cases hh
                · exact Or.inr (Or.inr (Or.inr ⟨g, y, hy, hq, hh⟩)))
            (fun h => absurd rfl h) (hi.pend _ qu hqu) (hi.seq _ qu hqu) (fun _ _ => ⟨rfl, rfl, rfl⟩)
            (fun g => by rw [hr]; simp) hi.hist
          rw [set_same hqu] at this
          subst hs
          exact this
      · cases hs
    · cases hs
  · cases hs

theorem inv_pop {s s' : Sys α} {f : Nat} (hi : Inv s) (hs : step s (.pop f) = some s') : Inv s' := by
  simp only [step] at hs
  split at hs
  · split at hs
    · rename_i hcur x hx
      split at hs
      · rename_i hst
        have hnd : x.st ≠ .done := by rw [hst]; simp
        have hr := hi.idle hx hnd (by rw [hst]; simp)
        have hal : queueAlive s x.qid = true := (queueAlive_iff _ _).mpr (Or.inr (Or.inr (Or.inr ⟨f, x, hx, rfl, by rw [hst]; rfl⟩)))
        unfold pop at hs
        split at hs
        · cases hs
        · rename_i qu hqu
          split at hs
          · rename_i hp
            simp only [Option.some.injEq] at hs
            subst hs
            exact inv_fiber hi hx hnd .done none qu { qu with active := false } hqu s.trace (fun _ h => h) (fun h => by cases h) (fun _ _ => rfl) (fun h => absurd rfl h) (fun h => absurd hp h)
              (hi.seq _ qu hqu) (fun _ _ => ⟨rfl, rfl, rfl⟩) (fun g => by rw [hr]; simp) hi.hist
          · rename_i y r hp
            simp only [Option.some.injEq] at hs
            subst hs
            have hseq := hi.seq _ qu hqu
            rw [hp] at hseq
            refine inv_fiber hi hx hnd .calling s.cur qu { qu with packets := r } hqu (.called f x.qid y :: s.trace) (fun _ h => .tail _ h) (fun _ => hal) (fun h => by cases h) (fun _ => rfl)
              (fun _ => hi.pend _ qu hqu (by rw [hp]; simp)) ?_ ?_ ?_ ⟨⟨hr, ?_⟩, hi.hist⟩
            · show arrivals s.trace x.qid = (if x.qid = x.qid then calls s.trace x.qid ++ [y] else calls s.trace x.qid) ++ r
              rw [if_pos rfl, hseq]; simp
            · intro p hne
              refine ⟨rfl, ?_, ?_⟩
              · simp only [calls]; rw [if_neg (fun h => hne h.symm)]
              · simp only [running]; rw [if_neg (fun h => hne h.symm)]
            · intro g
              simp only [running, if_true, Option.some.injEq, and_true]
              exact eq_comm
            · rw [hseq]; exact ⟨r, by simp⟩
      · cases hs
    · cases hs
  · cases hs

theorem inv_back {s s' : Sys α} {f : Nat} (hi : Inv s) (hs : step s (.back f) = some s') : Inv s' := by
  simp only [step] at hs
  split at hs
  · split at hs
    · rename_i hcur x hx
      split at hs
      · rename_i hst
        have hnd : x.st ≠ .done := by rw [hst]; simp
        obtain ⟨qu, hqu⟩ := hi.getQ hx
        have hr : running s.trace x.qid = some f := (hi.run _ f).mpr ⟨x, hx, rfl, hst⟩
        simp only [Option.some.injEq] at hs
        have := inv_fiber hi hx hnd .ready s.cur qu qu hqu (.returned f x.qid :: s.trace) (fun _ h => .tail _ h) (fun h => by cases h) (fun h => by cases h) (fun _ => rfl) (hi.pend _ qu hqu)
          (hi.seq _ qu hqu) (fun p hne => ⟨rfl, rfl, by simp only [running]; rw [if_neg (fun h => hne h.symm)]⟩) (fun g => by simp [running]) ⟨hr, hi.hist⟩
        rw [set_same hqu] at this
        subst hs
        exact this
      · cases hs
    · cases hs
  · cases hs

theorem inv_cur {s : Sys α} (hi : Inv s) (c : Option Nat) : Inv { s with cur := c } :=
  ⟨hi.fib, hi.user, hi.ownLt, hi.netLt, hi.uniq, hi.act, hi.back, hi.pend, hi.seq, hi.fresh, hi.run, hi.own, hi.sock, hi.asg, hi.stp, hi.hist⟩

theorem inv_step {s s' : Sys α} {a : Act α} (hi : Inv s) (hs : step s a = some s') : Inv s' := by
  cases a with
  | create => exact inv_create hi hs
  | assign => exact inv_assign hi hs
  | stop => exact inv_stop hi hs
  | packet q x => exact inv_packet hi hs
  | push fail => exact inv_push hi hs
  | resume f =>
    simp only [step] at hs
    split at hs
    · split at hs
      · split at hs
        · cases hs
        · simp only [Option.some.injEq] at hs; subst hs; exact inv_cur hi _
      · cases hs
    · cases hs
  | enter f => exact inv_enter hi hs
  | pop f => exact inv_pop hi hs
  | yield f =>
    simp only [step] at hs
    split at hs
    · split at hs
      · split at hs
        · simp only [Option.some.injEq] at hs; subst hs; exact inv_cur hi _
        · cases hs
      · cases hs
    · cases hs
  | back f => exact inv_back hi hs

theorem inv {s : Sys α} (h : Reachable s) : Inv s := by
  induction h with
  | init => exact inv_init
  | step _ hs ih => exact inv_step ih hs

end Verif.EasyQueue
