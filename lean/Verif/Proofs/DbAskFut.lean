import Verif.Proofs.DbAskConn
/-!
# Futures and their queries
-/
namespace Verif.Fiber

theorem step_grows {s s' : Sys} {a : Act} (h : step s a = some s') : ∃ l, s'.trace = l ++ s.trace := by
  cases step_case h <;> first | exact ⟨[], rfl⟩ | exact ⟨[_], rfl⟩ | exact ⟨[_, _], rfl⟩

/-- Only calls and exits of initializers change these. -/
theorem step_flags {s s' : Sys} {a : Act} (h : step s a = some s') (hc : ∀ t f, a = .call t f → (s.fut f).init = true) (hx : ∀ t e, a ≠ .exit t e) (f : Nat) :
    (s'.fut f).init = (s.fut f).init ∧ (s'.fut f).locked = (s.fut f).locked ∧ (s'.fut f).failed = (s.fut f).failed := by
  cases a with
  | tick d => cases h; exact ⟨rfl, rfl, rfl⟩
  | launch v =>
    simp only [step] at h
    split at h
    · cases h; exact ⟨rfl, rfl, rfl⟩
    · cases h
  | abandon k =>
    simp only [step] at h
    split at h
    · cases h; exact ⟨rfl, rfl, rfl⟩
    · cases h
  | call t g =>
    simp only [step] at h
    split at h
    · rw [if_pos (hc t g rfl)] at h; cases h; exact ⟨rfl, rfl, rfl⟩
    · cases h
  | exit t e => exact absurd rfl (hx t e)
  | notify t v =>
    simp only [step] at h
    split at h
    · split at h
      · cases h; unfold notify; split <;> exact ⟨rfl, rfl, rfl⟩
      · cases h
    · cases h
  | finalize t =>
    simp only [step] at h
    split at h
    · cases h; exact ⟨rfl, rfl, rfl⟩
    · cases h
  | enter =>
    simp only [step] at h
    split at h
    · split at h <;> (cases h; exact ⟨rfl, rfl, rfl⟩)
    · cases h
  | scan =>
    simp only [step] at h
    split at h
    · split at h
      · cases h; exact ⟨rfl, rfl, rfl⟩
      · cases h
    · cases h
  | endScan =>
    simp only [step] at h
    split at h
    · split at h
      · split at h <;> (cases h; exact ⟨rfl, rfl, rfl⟩)
      · cases h
    · cases h
  | pick k =>
    simp only [step] at h
    split at h
    · split at h
      · cases h; unfold pick; dsimp only; split <;> exact ⟨rfl, rfl, rfl⟩
      · cases h
    · cases h
  | look =>
    simp only [step] at h
    split at h
    · cases h
      unfold look enterFiber
      dsimp only
      repeat' split
      all_goals exact ⟨rfl, rfl, rfl⟩
    · cases h
  | yield fo =>
    simp only [step] at h
    split at h
    · cases h; unfold yield; split <;> exact ⟨rfl, rfl, rfl⟩
    · cases h
  | register =>
    simp only [step] at h
    split at h
    · split at h
      · cases h
      · cases h
        unfold register
        split
        · exact ⟨rfl, rfl, rfl⟩
        · dsimp only
          unfold upd
          split
          · rename_i he; subst he; exact ⟨rfl, rfl, rfl⟩
          · exact ⟨rfl, rfl, rfl⟩
    · cases h
  | finish =>
    simp only [step] at h
    split at h
    · cases h; exact ⟨rfl, rfl, rfl⟩
    · cases h

end Verif.Fiber

namespace Verif.DbAsk
open Verif.Fiber (upd upd_same upd_other)
variable {D : Driver}

theorem news_eq {s s' : Fiber.Sys} {l : List Fiber.Ev} (h : s'.trace = l ++ s.trace) : news s s' = l.reverse := by
  unfold news
  rw [h, List.length_append, Nat.add_sub_cancel, List.take_left]

/-- What the flags of a future say about its query. -/
def Flags (u : Fiber.Fut) : Phase D → Prop
  | .new => u.init = false ∧ u.locked = false
  | .lent _ => u.init = false ∧ u.locked = false
  | .started => u.locked = true
  | .reading => u.locked = true
  | .holding _ => u.locked = true
  | .executed _ => u.locked = true
  | .ended _ r => u.locked = true ∨ (u.init = true ∧ u.failed = r.isNone)
  | .cleared _ r => u.init = true ∧ u.failed = r.isNone
  | .returning _ r => u.init = true ∧ u.failed = r.isNone
  | .over r => u.init = true ∧ u.failed = r.isNone

theorem Flags.congr {u v : Fiber.Fut} {ph : Phase D} (h : Flags u ph) (hv : v.init = u.init ∧ v.locked = u.locked ∧ v.failed = u.failed) : Flags v ph := by
  obtain ⟨h1, h2, h3⟩ := hv
  cases ph <;> simp only [Flags] at h ⊢ <;> first | (rw [h2]; exact h) | (rw [h1, h2]; exact h) | (rw [h1, h3]; exact h) | (rw [h1, h2, h3]; exact h)

structure FInv (s : Sys D) : Prop where
  reach : Fiber.Reachable s.fib
  log : fibers s.log = s.fib.trace.reverse
  flags : ∀ f, Flags (s.fib.fut f) (s.phase f)

theorem initing_eq {s : Sys D} {t f : Nat} (h : initing s t = some f) : s.fib.thr t = .initing f := by
  unfold initing at h
  split at h
  · rename_i g hg; cases h; exact hg
  · cases h

theorem finalizing_eq {s : Sys D} {t f : Nat} (h : finalizing s t = some f) : ∃ since, s.fib.thr t = .notifying f since [] := by
  unfold finalizing at h
  split at h
  · rename_i g x hg; cases h; exact ⟨_, hg⟩
  · cases h

theorem finv_log {s : Sys D} {fib : Fiber.Sys} {a : Fiber.Act} (h : FInv s) (hs : Fiber.step s.fib a = some fib) :
    fibers (s.log ++ (news s.fib fib).map .fiber) = fib.trace.reverse := by
  obtain ⟨l, hl⟩ := Fiber.step_grows hs
  rw [fibers_append, fibers_fiber, news_eq hl, hl, List.reverse_append, h.log]

theorem finv_phase {s s' : Sys D} {f : Nat} {ph : Phase D} (h : FInv s) (hf : s'.fib = s.fib) (hl : fibers s'.log = fibers s.log) (hp : s'.phase = upd s.phase f ph)
    (hfl : Flags (s.fib.fut f) ph) : FInv s' where
  reach := by rw [hf]; exact h.reach
  log := by rw [hl, hf]; exact h.log
  flags g := by
    rw [hf, hp]
    by_cases he : g = f
    · subst he; rw [upd_same]; exact hfl
    · rw [upd_other _ _ he]; exact h.flags g

theorem finv_same {s s' : Sys D} (h : FInv s) (hf : s'.fib = s.fib) (hl : fibers s'.log = fibers s.log) (hp : s'.phase = s.phase) : FInv s' where
  reach := by rw [hf]; exact h.reach
  log := by rw [hl, hf]; exact h.log
  flags g := by rw [hf, hp]; exact h.flags g

/-- An initializer that begins has not begun before. -/
theorem begin_phase {s : Sys D} {t f : Nat} {fib : Fiber.Sys} (h : FInv s) (hs : Fiber.step s.fib (.call t f) = some fib) (hi : (s.fib.fut f).init = false) :
    (s.phase f = .new ∨ ∃ id, s.phase f = .lent id) ∧ fib = { s.fib with fut := upd s.fib.fut f { s.fib.fut f with locked := true }, thr := upd s.fib.thr t (.initing f), trace := .initBegan f :: s.fib.trace } := by
  simp only [Fiber.step] at hs
  split at hs
  · rename_i hc
    rw [if_neg (by rw [hi]; simp)] at hs
    cases hs
    refine ⟨?_, rfl⟩
    have := h.flags f
    have hl := hc.2
    cases hp : s.phase f with
    | new => exact .inl rfl
    | lent id => exact .inr ⟨id, rfl⟩
    | _ => rw [hp] at this; simp [Flags, hl, hi] at this
  · cases hs

theorem finv_step {cmd : Nat → D.Cmd} {s s' : Sys D} (h : FInv s) (hc : Case cmd s s') : FInv s' := by
  have hF := Fiber.futInv h.reach
  cases hc with
  | fiber a fib hs hcl hx =>
    refine ⟨.step _ h.reach hs, finv_log h hs, ?_⟩
    intro f
    by_cases ha : ∃ t e, a = .exit t e
    · obtain ⟨t, e, rfl⟩ := ha
      obtain ⟨g, id, r, ht, hp, he⟩ := hx t e rfl
      simp only [Fiber.step, ht] at hs
      cases hs
      have hne : e ≠ .foreign := by rw [he]; split <;> simp
      show Flags ((Fiber.exit s.fib t g e).fut f) (s.phase f)
      have hex : (Fiber.exit s.fib t g e).fut = upd s.fib.fut g { init := true, locked := false, failed := e == .threw, waiters := [] } := by
        unfold Fiber.exit
        split
        · exact absurd rfl hne
        · rfl
      rw [hex]
      by_cases hfg : f = g
      · subst hfg
        rw [upd_same, hp]
        refine .inr ⟨rfl, ?_⟩
        show (e == .threw) = _
        rw [he]
        cases r <;> rfl
      · rw [upd_other _ _ hfg]; exact h.flags f
    · refine (h.flags f).congr (Fiber.step_flags hs hcl ?_ f)
      intro t e hte; exact ha ⟨t, e, hte⟩
  | begin_ t f fib hs hi =>
    refine ⟨.step _ h.reach hs, finv_log h hs, ?_⟩
    obtain ⟨hph, rfl⟩ := begin_phase h hs hi
    intro g
    dsimp only
    by_cases he : g = f
    · subst he
      rw [upd_same, upd_same]
      rcases hph with hph | ⟨id, hph⟩ <;> rw [hph] <;> rfl
    · rw [upd_other _ _ he, upd_other _ _ he]; exact h.flags g
  | quiet a p hs ha => exact finv_same h rfl rfl rfl
  | reload c p hs => exact finv_same h rfl rfl rfl
  | lend o f id p hs hp =>
    refine finv_phase h rfl rfl rfl ?_
    have := h.flags f
    rw [hp] at this
    exact this
  | alloc o id uri pw new p hg hr ht phase' hp =>
    rcases hp with ⟨rfl, -⟩ | ⟨t, f, c, rfl, hsn, rfl, hi, hph, rfl⟩
    · exact finv_same h rfl rfl rfl
    · exact finv_phase h rfl rfl rfl (hF.owner t f (initing_eq hi)).1
  | exec o id net c p ho hs phase' hp =>
    have hl : ∀ l : List D.Ev, fibers (s.log ++ l.map (.server o id)) = fibers s.log := by intro l; rw [fibers_append, fibers_server, List.append_nil]
    rcases hp with ⟨rfl, -⟩ | ⟨t, f, rfl, rfl, hi, hph, rfl⟩
    · exact finv_same h rfl (hl _) rfl
    · refine finv_phase h rfl (hl _) rfl ?_
      have := (hF.owner t f (initing_eq hi)).1
      split
      · exact this
      · exact .inl this
  | next o id net ho => exact finv_same h rfl rfl rfl
  | fetch t f id net hi hp => exact finv_phase h rfl rfl rfl (.inl (hF.owner t f (initing_eq hi)).1)
  | reset o id ok p hs phase' hp =>
    rcases hp with ⟨rfl, -⟩ | ⟨t, f, r, rfl, hi, hph, rfl⟩
    · exact finv_same h rfl rfl rfl
    · obtain ⟨since, ht⟩ := finalizing_eq hi
      have hin := hF.notifying t f _ _ ht
      refine finv_phase h rfl rfl rfl ?_
      have := h.flags f
      rw [hph] at this
      rcases this with hl | hd
      · rw [Fiber.init_locked hF hin] at hl; cases hl
      · split <;> exact hd
  | readConf t f p hs hi hp => exact finv_phase h rfl rfl rfl (hF.owner t f (initing_eq hi)).1
  | rereadConf t f id r p hs hi hp =>
    refine finv_phase h rfl rfl rfl ?_
    have := h.flags f
    rw [hp] at this
    exact this
  | giveBack t f id r p hs hi hp =>
    refine finv_phase h rfl rfl rfl ?_
    have := h.flags f
    rw [hp] at this
    exact this

/-! What has been asked -/

/-- Nothing has been asked yet. -/
def Phase.early : Phase D → Prop
  | .new | .lent _ | .started | .reading | .holding _ => True
  | _ => False

/-- A query which has ended. -/
def Phase.fin : Phase D → Option (Option D.Res)
  | .ended _ r | .cleared _ r | .returning _ r | .over r => some r
  | _ => none

structure Sent (cmd : Nat → D.Cmd) (s : Sys D) (f id : Nat) (net : D.Net) (c0 c1 : D.Conn) (ok : Bool) : Prop where
  eq : D.execute net c0 (cmd f) = (c1, ok)
  asked : asked f s.log = ((D.trace c1).drop (D.trace c0).length).map fun e => (id, e)
  from_ : ConnOf s f id (D.uri c0)

structure AInv (cmd : Nat → D.Cmd) (s : Sys D) : Prop where
  early : ∀ f, (s.phase f).early → asked f s.log = []
  sent : ∀ f id, s.phase f = .executed id → ∃ net c0, Sent cmd s f id net c0 (s.real id) true
  done : ∀ f r, (s.phase f).fin = some r → ∃ id net c0 c1 ok, Sent cmd s f id net c0 c1 ok ∧ (ok = false → r = none) ∧ (ok = true → ∃ net', (D.fetch net' c1).2 = r)

theorem Sent.mono {cmd : Nat → D.Cmd} {s s' : Sys D} {f id : Nat} {net : D.Net} {c0 c1 : D.Conn} {ok : Bool} (h : Sent cmd s f id net c0 c1 ok)
    (ht : ∃ l, s'.pool.trace = l ++ s.pool.trace) (hc : ∀ c ∈ s.confs, c ∈ s'.confs) (hl : DbAsk.asked f s'.log = DbAsk.asked f s.log) : Sent cmd s' f id net c0 c1 ok where
  eq := h.eq
  asked := by rw [hl]; exact h.asked
  from_ := h.from_.mono ht hc

/-- Steps that change only the phase of one future, to one that is no different as far as the query is concerned, and connections which no future has. -/
theorem ainv_same {cmd : Nat → D.Cmd} {s s' : Sys D} (h : AInv cmd s) (ht : ∃ l, s'.pool.trace = l ++ s.pool.trace) (hc : ∀ c ∈ s.confs, c ∈ s'.confs)
    (hl : ∀ f, DbAsk.asked f s'.log = DbAsk.asked f s.log)
    (he : ∀ f, (s'.phase f).early → (s.phase f).early)
    (hx : ∀ f id, s'.phase f = .executed id → s.phase f = .executed id ∧ s'.real id = s.real id)
    (hd : ∀ f r, (s'.phase f).fin = some r → (s.phase f).fin = some r) : AInv cmd s' where
  early f hf := by rw [hl]; exact h.early f (he f hf)
  sent f id hf := by
    obtain ⟨h1, h2⟩ := hx f id hf
    obtain ⟨net, c0, h3⟩ := h.sent f id h1
    exact ⟨net, c0, by rw [h2]; exact h3.mono ht hc (hl f)⟩
  done f r hf := by
    obtain ⟨id, net, c0, c1, ok, h1, h2⟩ := h.done f r (hd f r hf)
    exact ⟨id, net, c0, c1, ok, h1.mono ht hc (hl f), h2⟩

theorem upd_early {phase : Nat → Phase D} {f : Nat} {ph : Phase D} (h : ph.early → (phase f).early) : ∀ g, (upd phase f ph g).early → (phase g).early := by
  intro g hg
  by_cases he : g = f
  · subst he; rw [upd_same] at hg; exact h hg
  · rwa [upd_other _ _ he] at hg
theorem upd_fin {phase : Nat → Phase D} {f : Nat} {ph : Phase D} (h : ∀ r, ph.fin = some r → (phase f).fin = some r) : ∀ g r, (upd phase f ph g).fin = some r → (phase g).fin = some r := by
  intro g r hg
  by_cases he : g = f
  · subst he; rw [upd_same] at hg; exact h r hg
  · rwa [upd_other _ _ he] at hg
theorem upd_exe {phase : Nat → Phase D} {f : Nat} {ph : Phase D} (h : ∀ id, ph ≠ .executed id) : ∀ g id, upd phase f ph g = .executed id → phase g = .executed id := by
  intro g id hg
  by_cases he : g = f
  · subst he; rw [upd_same] at hg; exact absurd hg (h id)
  · rwa [upd_other _ _ he] at hg

theorem ainv_step {L : Laws D} {cmd : Nat → D.Cmd} {s s' : Sys D} (h : AInv cmd s) (hP : PInv L s) (hF : FInv s) (hc : Case cmd s s') : AInv cmd s' := by
  have hfib : ∀ (l : List Fiber.Ev) f, asked f (s.log ++ l.map .fiber) = asked f s.log := by
    intro l f; rw [asked_append, asked_fiber, List.append_nil]
  have hI := Pool.inv hP.reach
  -- connections of others
  have hoth : ∀ {o id : Nat}, (o, id) ∈ s.pool.owned → ∀ g i, s.phase g = .executed i → future g ≠ o → i ≠ id := by
    intro o id ho g i hg hne he
    subst he
    exact hne (Pool.owner_unique hI (hP.owns g i (by rw [hg]; rfl)) ho)
  cases hc with
  | fiber a fib hs hcl hx => exact ainv_same h ⟨[], rfl⟩ (fun _ h => h) (hfib _) (fun _ h => h) (fun _ _ h => ⟨h, rfl⟩) (fun _ _ h => h)
  | begin_ t f fib hs hi =>
    obtain ⟨hph, -⟩ := begin_phase hF hs hi
    refine ainv_same h ⟨[], rfl⟩ (fun _ h => h) (hfib _) (upd_early ?_) (fun g id hg => ⟨upd_exe ?_ g id hg, rfl⟩) (upd_fin ?_)
    · intro _; rcases hph with hph | ⟨id, hph⟩ <;> rw [hph] <;> exact trivial
    · intro i; split <;> simp
    · intro r hr; split at hr <;> exact nomatch hr
  | quiet a p hs ha => exact ainv_same h (Pool.step_trace hs) (fun _ h => h) (fun _ => rfl) (fun _ h => h) (fun _ _ h => ⟨h, rfl⟩) (fun _ _ h => h)
  | reload c p hs => exact ainv_same h (Pool.step_trace hs) (fun _ h => .tail _ h) (fun _ => rfl) (fun _ h => h) (fun _ _ h => ⟨h, rfl⟩) (fun _ _ h => h)
  | lend o f id p hs hp =>
    refine ainv_same h (Pool.step_trace hs) (fun _ h => h) (fun _ => rfl) (upd_early ?_) (fun g id hg => ⟨upd_exe ?_ g id hg, rfl⟩) (upd_fin ?_)
    · intro _; rw [hp]; exact trivial
    · intro i; simp
    · intro r hr; exact nomatch hr
  | alloc o id uri pw new p hg hr ht phase' hp =>
    have hreal : ∀ g i, s.phase g = .executed i → (if new then upd s.real id (D.fresh uri pw) else s.real) i = s.real i := by
      intro g i hgi
      cases new with
      | false => rfl
      | true =>
        simp only [if_true]
        refine upd_other _ _ ?_
        rw [(hg.fresh rfl).1]
        exact Nat.ne_of_lt (Pool.owned_lt hI (hP.owns g i (by rw [hgi]; rfl)))
    rcases hp with ⟨rfl, -⟩ | ⟨t, f, c, rfl, hsn, rfl, hi, hph, rfl⟩
    · exact ainv_same h ht (fun _ h => h) (fun _ => rfl) (fun _ h => h) (fun g i h => ⟨h, hreal g i h⟩) (fun _ _ h => h)
    · have hexe := upd_exe (phase := s.phase) (f := f) (ph := .holding id) (by simp)
      refine ainv_same h ht (fun _ h => h) (fun _ => rfl) (upd_early ?_) (fun g i hg => ⟨hexe g i hg, hreal g i (hexe g i hg)⟩) (upd_fin ?_)
      · intro _; rw [hph]; exact trivial
      · intro r hr; exact nomatch hr
  | exec o id net c p ho hs phase' hp =>
    have ht := Pool.step_trace hs
    generalize hev : (D.trace (D.execute net (s.real id) c).1).drop (D.trace (s.real id)).length = evs
    have hask : ∀ g, future g ≠ o → asked g (s.log ++ evs.map (.server o id)) = asked g s.log := by
      intro g hg; rw [asked_append, asked_server_other (fun x => hg x.symm), List.append_nil]
    rcases hp with ⟨rfl, x, rfl⟩ | ⟨t, f, rfl, rfl, hi, hph, rfl⟩
    · exact ainv_same h ht (fun _ h => h) (fun g => hask g (future_ne_user g x)) (fun _ h => h)
        (fun g i h => ⟨h, upd_other _ _ (hoth ho g i h (future_ne_user g x))⟩) (fun _ _ h => h)
    · have hown : asked f (s.log ++ evs.map (.server (future f) id)) = evs.map fun e => (id, e) := by
        rw [asked_append, asked_server_same, h.early f (by rw [hph]; exact trivial), List.nil_append]
      have hsent : Sent cmd { s with
          pool := p, real := upd s.real id (D.execute net (s.real id) (cmd f)).1, log := s.log ++ evs.map (.server (future f) id)
          phase := upd s.phase f (if (D.execute net (s.real id) (cmd f)).2 then .executed id else .ended id none) } f id net (s.real id)
          (D.execute net (s.real id) (cmd f)).1 (D.execute net (s.real id) (cmd f)).2 :=
        ⟨rfl, by rw [hev]; exact hown, (hP.from_ f id (by rw [hph]; rfl)).mono ht (fun _ h => h)⟩
      generalize hok : (D.execute net (s.real id) (cmd f)).2 = ok at hsent
      have hne : ∀ g, g ≠ f → future g ≠ future f := fun g hg he => hg (future_inj he)
      constructor
      · intro g hg
        dsimp only at hg ⊢
        by_cases he : g = f
        · subst he
          rw [upd_same] at hg
          cases ok <;> exact hg.elim
        · rw [upd_other _ _ he] at hg
          rw [hask g (hne g he)]
          exact h.early g hg
      · intro g i hg
        dsimp only at hg ⊢
        by_cases he : g = f
        · subst he
          rw [upd_same] at hg
          cases ok with
          | false => exact nomatch hg
          | true =>
            simp only [if_true] at hg
            cases hg
            rw [upd_same]
            exact ⟨net, _, hsent⟩
        · rw [upd_other _ _ he] at hg
          obtain ⟨net', c0, h3⟩ := h.sent g i hg
          rw [upd_other _ _ (hoth ho g i hg (hne g he))]
          exact ⟨net', c0, h3.mono ht (fun _ h => h) (hask g (hne g he))⟩
      · intro g r hg
        dsimp only at hg
        by_cases he : g = f
        · subst he
          rw [upd_same] at hg
          cases ok with
          | true => exact nomatch hg
          | false =>
            cases hg
            exact ⟨id, net, _, _, false, hsent, fun _ => rfl, by simp⟩
        · rw [upd_other _ _ he] at hg
          obtain ⟨i, net', c0, c1, ok', h1, h2⟩ := h.done g r hg
          exact ⟨i, net', c0, c1, ok', h1.mono ht (fun _ h => h) (hask g (hne g he)), h2⟩
  | next o id net ho =>
    exact ainv_same h ⟨[], rfl⟩ (fun _ h => h) (fun _ => rfl) (fun _ h => h) (fun g i h => ⟨h, upd_other _ _ (hoth ho g i h (future_ne_user g o))⟩) (fun _ _ h => h)
  | fetch t f id net hi hp =>
    have ho := hP.owns f id (by rw [hp]; rfl)
    obtain ⟨net1, c0, hsent⟩ := h.sent f id hp
    constructor
    · intro g hg
      refine h.early g ?_
      dsimp only at hg
      by_cases he : g = f
      · subst he; rw [upd_same] at hg; exact hg.elim
      · rwa [upd_other _ _ he] at hg
    · intro g i hg
      dsimp only at hg ⊢
      by_cases he : g = f
      · subst he; rw [upd_same] at hg; cases hg
      · rw [upd_other _ _ he] at hg
        rw [upd_other _ _ (hoth ho g i hg (fun x => he (future_inj x)))]
        obtain ⟨net', c0, h3⟩ := h.sent g i hg
        exact ⟨net', c0, h3.mono ⟨[], rfl⟩ (fun _ h => h) rfl⟩
    · intro g r hg
      dsimp only at hg
      by_cases he : g = f
      · subst he
        rw [upd_same] at hg
        cases hg
        exact ⟨id, net1, c0, _, true, hsent.mono ⟨[], rfl⟩ (fun _ h => h) rfl, by simp, fun _ => ⟨net, rfl⟩⟩
      · rw [upd_other _ _ he] at hg
        obtain ⟨i, net', c0, c1, ok', h1, h2⟩ := h.done g r hg
        exact ⟨i, net', c0, c1, ok', h1.mono ⟨[], rfl⟩ (fun _ h => h) rfl, h2⟩
  | reset o id ok p hs phase' hp =>
    have ht := Pool.step_trace hs
    have ho : (o, id) ∈ s.pool.owned := by
      simp only [Pool.step] at hs
      split at hs
      · assumption
      · cases hs
    rcases hp with ⟨rfl, x, rfl⟩ | ⟨t, f, r, rfl, hi, hph, rfl⟩
    · exact ainv_same h ht (fun _ h => h) (fun _ => rfl) (fun _ h => h) (fun g i h => ⟨h, upd_other _ _ (hoth ho g i h (future_ne_user g x))⟩) (fun _ _ h => h)
    · have hexe := upd_exe (phase := s.phase) (f := f) (ph := if (D.reset ok (s.real id)).2 then .cleared id r else .over r) (by intro i; split <;> simp)
      refine ainv_same h ht (fun _ h => h) (fun _ => rfl) (upd_early ?_) (fun g i hg => ⟨hexe g i hg, upd_other _ _ (hoth ho g i (hexe g i hg) ?_)⟩) (upd_fin ?_)
      · intro hx; split at hx <;> exact hx.elim
      · intro he
        have := future_inj he
        subst this
        have := hexe g i hg
        rw [hph] at this
        cases this
      · intro r' hr'; rw [hph]; split at hr' <;> exact hr'
  | readConf t f p hs hi hp =>
    refine ainv_same h (Pool.step_trace hs) (fun _ h => h) (fun _ => rfl) (upd_early ?_) (fun g id hg => ⟨upd_exe ?_ g id hg, rfl⟩) (upd_fin ?_)
    · intro _; rw [hp]; exact trivial
    · intro i; simp
    · intro r hr; exact nomatch hr
  | rereadConf t f id r p hs hi hp =>
    refine ainv_same h (Pool.step_trace hs) (fun _ h => h) (fun _ => rfl) (upd_early ?_) (fun g id hg => ⟨upd_exe ?_ g id hg, rfl⟩) (upd_fin ?_)
    · intro hx; exact hx.elim
    · intro i; simp
    · intro r' hr'; rw [hp]; exact hr'
  | giveBack t f id r p hs hi hp =>
    refine ainv_same h (Pool.step_trace hs) (fun _ h => h) (fun _ => rfl) (upd_early ?_) (fun g id hg => ⟨upd_exe ?_ g id hg, rfl⟩) (upd_fin ?_)
    · intro hx; exact hx.elim
    · intro i; simp
    · intro r' hr'; rw [hp]; exact hr'

/-! When it has been asked -/

theorem between_append {log xs : List (Item D)} (h : Between log)
    (hx : ∀ a f id e b, xs = a ++ .server (future f) id e :: b → Item.fiber (.initBegan f) ∈ log ++ a ∧ Item.fiber (.completed f) ∉ log ++ a) : Between (log ++ xs) := by
  intro a f id e b he
  rw [List.append_eq_append_iff] at he
  rcases he with ⟨a', h1, h2⟩ | ⟨b', h1, h2⟩
  · subst h1
    exact hx a' f id e b h2
  · cases b' with
    | nil =>
      rw [List.append_nil] at h1
      subst h1
      have := hx [] f id e b (by rw [List.nil_append] at h2 ⊢; exact h2.symm)
      rwa [List.append_nil] at this
    | cons y ys =>
      simp only [List.cons_append, List.cons.injEq] at h2
      obtain ⟨rfl, h2⟩ := h2
      exact h a f id e ys h1

theorem between_fibers {log : List (Item D)} (l : List Fiber.Ev) (h : Between log) : Between (log ++ l.map .fiber) := by
  refine between_append h ?_
  intro a f id e b he
  have : Item.server (future f) id e ∈ l.map (Item.fiber (D := D)) := by rw [he]; simp
  simp at this

theorem mem_fibers {log : List (Item D)} {e : Fiber.Ev} : Item.fiber e ∈ log ↔ e ∈ fibers log := by
  unfold fibers
  rw [List.mem_filterMap]
  constructor
  · intro h; exact ⟨_, h, rfl⟩
  · rintro ⟨x, hx, h⟩
    cases x with
    | fiber e' => cases h; exact hx
    | server => cases h

theorem between_step {cmd : Nat → D.Cmd} {s s' : Sys D} (h : Between s.log) (hF : FInv s) (hc : Case cmd s s') : Between s'.log := by
  cases hc with
  | fiber a fib hs hcl hx => exact between_fibers _ h
  | begin_ t f fib hs hi => exact between_fibers _ h
  | exec o id net c p ho hs phase' hp =>
    refine between_append h ?_
    intro a f i e b he
    have hU := Fiber.futInv hF.reach
    have hmem : ∀ x ∈ (((D.trace (D.execute net (s.real id) c).1).drop (D.trace (s.real id)).length).map (Item.server (D := D) o id)), ∃ y, x = .server o id y := by
      intro x hx
      obtain ⟨y, -, rfl⟩ := List.mem_map.1 hx
      exact ⟨y, rfl⟩
    obtain ⟨y, hy⟩ := hmem (.server (future f) i e) (by rw [he]; simp)
    injection hy with h1 h2 h3
    have hnot : ∀ ev, Item.fiber ev ∉ a := by
      intro ev hev
      obtain ⟨z, hz⟩ := hmem (.fiber ev) (by rw [he]; simp [hev])
      cases hz
    rcases hp with ⟨rfl, x, rfl⟩ | ⟨t, g, rfl, rfl, hi, hph, rfl⟩
    · exact absurd h1 (future_ne_user f x)
    · have := future_inj h1
      subst this
      obtain ⟨hl, hin⟩ := hU.owner t f (initing_eq hi)
      constructor
      · refine List.mem_append.2 (.inl (mem_fibers.2 ?_))
        rw [hF.log, List.mem_reverse]
        have := hU.begins f
        rw [hl] at this
        refine List.count_pos_iff.1 ?_
        rw [this]
        simp
      · intro hm
        rcases List.mem_append.1 hm with hm | hm
        · rw [mem_fibers, hF.log, List.mem_reverse, ← hU.completed f, hin] at hm
          cases hm
        · exact hnot _ hm
  | _ => exact h

/-- All of it. -/
structure Inv (L : Laws D) (cmd : Nat → D.Cmd) (s : Sys D) : Prop where
  conn : PInv L s
  fut : FInv s
  ask : AInv cmd s
  between : Between s.log

theorem inv (L : Laws D) {cmd : Nat → D.Cmd} {s : Sys D} (h : Reachable cmd s) : Inv L cmd s := by
  induction h with
  | init warn fail =>
    refine ⟨pinv_init L warn fail, ⟨.init _ _, rfl, fun f => ⟨rfl, rfl⟩⟩, ⟨fun _ _ => rfl, ?_, ?_⟩, ?_⟩
    · intro f id hf; cases hf
    · intro f r hf; cases hf
    · intro a f id e b he
      exact absurd he (by simp [start])
  | step _ hs ih =>
    have hc := step_case hs
    exact ⟨pinv_step ih.conn hc, finv_step ih.fut hc, ainv_step ih.ask ih.conn ih.fut hc, between_step ih.between ih.fut hc⟩

end Verif.DbAsk
