import Verif.Spec.DbLive
import Verif.Props.DbAsk
import Verif.Props.FiberLive
/-!
# C128: queries end
-/
namespace Verif.Props
open Verif.DbAsk Verif.Live
open Verif.Fiber (upd upd_same upd_other)

theorem dl_since {s} (h : Fiber.Reachable s) : ∀ t f since todo, s.thr t = .notifying f since todo → since ≤ s.clock := by
  induction h with
  | init => exact fun _ _ _ _ h => nomatch h
  | @step s s' a hr hs ih =>
    have up : ∀ t0 (x : Fiber.Thr), (∀ f since todo, x = .notifying f since todo → since ≤ s.clock) → ∀ t f since todo, upd s.thr t0 x t = .notifying f since todo → since ≤ s.clock := by
      intro t0 x hx t f since todo h
      unfold upd at h
      split at h
      · exact hx _ _ _ h
      · exact ih _ _ _ _ h
    cases Fiber.step_case hs with
    | tick d => exact fun t f since todo h => Nat.le_trans (ih t f since todo h) (Nat.le_add_right _ _)
    | call t f => exact up _ _ (by intro _ _ _ h; cases h)
    | escape t f => exact up _ _ (by intro _ _ _ h; cases h)
    | complete t f e => exact up _ _ (by intro _ _ _ h; cases h; exact Nat.le_refl _)
    | notify t f since k v todo ht => exact up _ _ (by intro _ _ _ h; cases h; exact ih _ _ _ _ ht)
    | gone t f since k todo ht => exact up _ _ (by intro _ _ _ h; cases h; exact ih _ _ _ _ ht)
    | finalize t f => exact up _ _ (by intro _ _ _ h; cases h)
    | _ => exact ih

/-- What happens to a thread that runs an initializer. -/
theorem dl_initing {s a s'} (h : Fiber.step s a = some s') {t f : Nat} (ht : s.thr t = .initing f) (ha : ∀ e, a ≠ .exit t e) : s'.thr t = .initing f := by
  have up : ∀ t0 x, t0 ≠ t → upd s.thr t0 x t = .initing f := fun t0 x hne => by rw [upd_other _ _ (fun h => hne h.symm)]; exact ht
  cases a with
  | exit u e =>
    have hu : u ≠ t := fun h => ha e (by rw [h])
    simp only [Fiber.step] at h
    split at h
    · cases h; unfold Fiber.exit; split <;> exact up _ _ hu
    · cases h
  | call u g =>
    simp only [Fiber.step] at h
    split at h
    · rename_i hc
      have hu : u ≠ t := fun hu => by rw [hu, ht] at hc; exact nomatch hc.1
      split at h
      · cases h; exact ht
      · cases h; exact up _ _ hu
    · cases h
  | notify u v =>
    simp only [Fiber.step] at h
    split at h
    · rename_i hc
      have hu : u ≠ t := fun hu => by rw [hu, ht] at hc; exact nomatch hc
      split at h
      · cases h; unfold Fiber.notify; split <;> exact up _ _ hu
      · cases h
    · cases h
  | finalize u =>
    simp only [Fiber.step] at h
    split at h
    · rename_i hc
      have hu : u ≠ t := fun hu => by rw [hu, ht] at hc; exact nomatch hc
      cases h; exact up _ _ hu
    · cases h
  | look =>
    simp only [Fiber.step] at h
    split at h
    · cases h
      unfold Fiber.look Fiber.enterFiber
      dsimp only
      repeat' split
      all_goals exact ht
    · cases h
  | yield fo =>
    simp only [Fiber.step] at h
    split at h
    · cases h; unfold Fiber.yield; split <;> exact ht
    · cases h
  | register =>
    simp only [Fiber.step] at h
    split at h
    · split at h
      · cases h
      · cases h; unfold Fiber.register; split <;> exact ht
    · cases h
  | pick k =>
    simp only [Fiber.step] at h
    split at h
    · split at h
      · cases h; unfold Fiber.pick; dsimp only; split <;> exact ht
      · cases h
    · cases h
  | _ =>
    simp only [Fiber.step] at h
    repeat' split at h
    all_goals first | (cases h; done) | (rw [← Option.some.inj h]; exact ht)

/-- What happens to a thread that notifies waiters. -/
theorem dl_notifying {s a s'} (h : Fiber.step s a = some s') {t f since : Nat} {todo : List Nat} (ht : s.thr t = .notifying f since todo) :
    (s'.thr t = .notifying f since todo ∧ (∀ v, a ≠ .notify t v) ∧ a ≠ .finalize t) ∨ (∃ k rest, todo = k :: rest ∧ s'.thr t = .notifying f since rest) ∨ (a = .finalize t ∧ Fiber.Ev.finalized f ∈ s'.trace) := by
  have up : ∀ t0 x, t0 ≠ t → upd s.thr t0 x t = .notifying f since todo := fun t0 x hne => by rw [upd_other _ _ (fun h => hne h.symm)]; exact ht
  cases a with
  | exit u e =>
    simp only [Fiber.step] at h
    split at h
    · rename_i hc
      have hu : u ≠ t := fun hu => by rw [hu, ht] at hc; exact nomatch hc
      cases h; left; refine ⟨?_, by simp, by simp⟩; unfold Fiber.exit; split <;> exact up _ _ hu
    · cases h
  | call u g =>
    left
    refine ⟨?_, by simp, by simp⟩
    simp only [Fiber.step] at h
    split at h
    · rename_i hc
      have hu : u ≠ t := fun hu => by rw [hu, ht] at hc; exact nomatch hc.1
      split at h
      · cases h; exact ht
      · cases h; exact up _ _ hu
    · cases h
  | notify u v =>
    simp only [Fiber.step] at h
    split at h
    · rename_i g since' k rest hc
      split at h
      · by_cases hu : u = t
        · subst hu
          rw [ht] at hc
          cases hc
          cases h
          right; left
          refine ⟨k, rest, rfl, ?_⟩
          unfold Fiber.notify
          split <;> exact upd_same ..
        · cases h; left; refine ⟨?_, (by intro v h; cases h; exact hu rfl), by simp⟩; unfold Fiber.notify; split <;> exact up _ _ hu
      · cases h
    · cases h
  | finalize u =>
    simp only [Fiber.step] at h
    split at h
    · rename_i g since' hc
      by_cases hu : u = t
      · subst hu
        rw [ht] at hc
        cases hc
        cases h
        exact .inr (.inr ⟨rfl, List.mem_cons_self ..⟩)
      · cases h; exact .inl ⟨up _ _ hu, by simp, (by intro h; cases h; exact hu rfl)⟩
    · cases h
  | look =>
    left
    refine ⟨?_, by simp, by simp⟩
    simp only [Fiber.step] at h
    split at h
    · cases h
      unfold Fiber.look Fiber.enterFiber
      dsimp only
      repeat' split
      all_goals exact ht
    · cases h
  | yield fo =>
    left
    refine ⟨?_, by simp, by simp⟩
    simp only [Fiber.step] at h
    split at h
    · cases h; unfold Fiber.yield; split <;> exact ht
    · cases h
  | register =>
    left
    refine ⟨?_, by simp, by simp⟩
    simp only [Fiber.step] at h
    split at h
    · split at h
      · cases h
      · cases h; unfold Fiber.register; split <;> exact ht
    · cases h
  | pick k =>
    left
    refine ⟨?_, by simp, by simp⟩
    simp only [Fiber.step] at h
    split at h
    · split at h
      · cases h; unfold Fiber.pick; dsimp only; split <;> exact ht
      · cases h
    · cases h
  | _ =>
    left
    refine ⟨?_, by simp, by simp⟩
    simp only [Fiber.step] at h
    repeat' split at h
    all_goals first | (cases h; done) | (rw [← Option.some.inj h]; exact ht)

variable {D : Driver} {cmd : Nat → D.Cmd}

/-- How far a query is from its end. -/
def dlRank : Phase D → Nat
  | .new => 9
  | .lent _ => 8
  | .started => 7
  | .reading => 6
  | .holding _ => 5
  | .executed _ => 4
  | .ended _ _ => 3
  | .cleared _ _ => 2
  | .returning _ _ => 1
  | .over _ => 0

theorem dl_upd {ph : Nat → Phase D} {g : Nat} {x : Phase D} (h : dlRank x ≤ dlRank (ph g)) (f : Nat) : dlRank (upd ph g x f) ≤ dlRank (ph f) := by
  unfold upd
  split
  · rename_i hf; rw [hf]; exact h
  · exact Nat.le_refl _

/-- A query never goes back. -/
theorem dl_rank {L : Laws D} {s a s'} (h : DbAsk.step cmd s a = some s') (hr : DbAsk.Reachable cmd s) (f : Nat) : dlRank (s'.phase f) ≤ dlRank (s.phase f) := by
  cases DbAsk.step_case h with
  | begin_ t g fib hs hi =>
    refine dl_upd ?_ f
    have hF := (DbAsk.inv L hr).fut.flags g
    have hl : (s.fib.fut g).locked = false := by
      simp only [Fiber.step] at hs
      split at hs
      · rename_i hc; exact hc.2
      · cases hs
    cases hp : s.phase g with
    | new => simp [dlRank]
    | lent id => simp [dlRank]
    | _ => rw [hp] at hF; simp [Flags, hi, hl] at hF
  | lend h g id p hs hp => exact dl_upd (by rw [hp]; simp [dlRank]) f
  | alloc o id uri pw new p hg hr ht ph hp =>
    rcases hp with ⟨rfl, -⟩ | ⟨t, g, c, -, -, -, -, h6, rfl⟩
    · exact Nat.le_refl _
    · exact dl_upd (by rw [h6]; simp [dlRank]) f
  | exec o id net c p ho hs ph hp =>
    rcases hp with ⟨rfl, -⟩ | ⟨t, g, -, -, -, h6, rfl⟩
    · exact Nat.le_refl _
    · exact dl_upd (by rw [h6]; split <;> simp [dlRank]) f
  | fetch t g id net hi hp => exact dl_upd (by rw [hp]; simp [dlRank]) f
  | reset o id ok p hs ph hp =>
    rcases hp with ⟨rfl, -⟩ | ⟨t, g, r, -, -, h6, rfl⟩
    · exact Nat.le_refl _
    · exact dl_upd (by rw [h6]; split <;> simp [dlRank]) f
  | readConf t g p hs hi hp => exact dl_upd (by rw [hp]; simp [dlRank]) f
  | rereadConf t g id r p hs hi hp => exact dl_upd (by rw [hp]; simp [dlRank]) f
  | giveBack t g id r p hs hi hp => exact dl_upd (by rw [hp]; simp [dlRank]) f
  | _ => exact Nat.le_refl _

/-- The configuration that a thread has read is only forgotten by using it. -/
theorem dl_snap {s a p} (h : Pool.step s a = some p) (x : Nat) (h1 : ∀ u w, a ≠ .allocate x u w) (h2 : a ≠ .allocateDefault x) (h3 : a ≠ .allocateSecondary x) (h4 : a ≠ .allocateTertiary x)
    (h5 : ∀ id, a ≠ .giveBack x id) (hx : (s.snap x).isSome = true) : (p.snap x).isSome = true := by
  have al : ∀ o c idle uri pw, o ≠ x → ((s.snap o).map fun _ : Pool.Conf => Pool.allocate s o idle uri pw) = some c → (c.snap x).isSome = true := by
    intro o c idle uri pw ho h
    obtain ⟨_, -, rfl⟩ := Option.map_eq_some_iff.1 h
    obtain ⟨_, _, -, hg⟩ := Pool.allocate_given s o idle uri pw
    rw [hg.keep x (fun h => ho h.symm)]; exact hx
  have al' : ∀ o (g : Pool.Conf → Pool.Sys) c, o ≠ x → (∀ q, ∃ idle uri pw, g q = Pool.allocate s o idle uri pw) → (s.snap o).map g = some c → (c.snap x).isSome = true := by
    intro o g c ho hg h
    obtain ⟨q, -, rfl⟩ := Option.map_eq_some_iff.1 h
    obtain ⟨idle, uri, pw, hq⟩ := hg q
    obtain ⟨_, _, -, hg⟩ := Pool.allocate_given s o idle uri pw
    rw [hq, hg.keep x (fun h => ho h.symm)]; exact hx
  cases a with
  | reload c => cases h; exact hx
  | tick n => cases h; exact hx
  | read o =>
    cases h
    show ((if x = o then some s.conf else s.snap x)).isSome = true
    split
    · rfl
    · exact hx
  | allocate o u w => exact al' o _ _ (fun ho => h1 u w (by rw [ho])) (fun _ => ⟨_, _, _, rfl⟩) h
  | allocateDefault o => exact al' o _ _ (fun ho => h2 (by rw [ho])) (fun _ => ⟨_, _, _, rfl⟩) h
  | allocateSecondary o =>
    simp only [Pool.step] at h
    split at h
    · exact al' o _ _ (fun ho => h3 (by rw [ho])) (fun _ => ⟨_, _, _, rfl⟩) h
    · cases h
  | allocateTertiary o =>
    simp only [Pool.step] at h
    split at h
    · exact al' o _ _ (fun ho => h4 (by rw [ho])) (fun _ => ⟨_, _, _, rfl⟩) h
    · cases h
  | giveBack o id =>
    have ho : x ≠ o := fun ho => h5 id (by rw [ho])
    simp only [Pool.step] at h
    split at h
    · obtain ⟨c, -, rfl⟩ := Option.map_eq_some_iff.1 h
      unfold Pool.giveBack
      dsimp only
      split
      · show (if x = o then none else s.snap x).isSome = true
        rw [if_neg ho]; exact hx
      · split
        · show (if x = o then none else s.snap x).isSome = true
          rw [if_neg ho]; exact hx
        · show (if x = o then none else s.snap x).isSome = true
          rw [if_neg ho]; exact hx
    · cases h
  | _ =>
    simp only [Pool.step] at h
    split at h
    · cases h; exact hx
    · cases h

/-- A thread that is about to use the configuration has read it. -/
def DlRead (s : Sys D) : Prop := ∀ f, (s.phase f = .reading ∨ ∃ id r, s.phase f = .returning id r) → (s.pool.snap (future f)).isSome = true

theorem dl_read {s} (h : DbAsk.Reachable cmd s) : DlRead s := by
  induction h with
  | init => exact fun f h => by rcases h with h | ⟨_, _, h⟩ <;> exact nomatch h
  | @step s s' a hr hs ih =>
    have up : ∀ g (x : Phase D), x ≠ .reading → (∀ id r, x ≠ .returning id r) → ∀ f, (upd s.phase g x f = .reading ∨ ∃ id r, upd s.phase g x f = .returning id r) → f ≠ g ∧ (s.phase f = .reading ∨ ∃ id r, s.phase f = .returning id r) := by
      intro g x h1 h2 f h
      unfold upd at h
      split at h
      · rcases h with h | ⟨_, _, h⟩
        · exact absurd h h1
        · exact absurd h (h2 _ _)
      · rename_i hf; exact ⟨hf, h⟩
    cases DbAsk.step_case hs with
    | fiber => exact ih
    | begin_ t g fib hst hi => exact fun f h => ih f (up g _ (by split <;> simp) (by split <;> simp) f h).2
    | quiet a p hp ha =>
      intro f hf
      refine dl_snap hp (future f) ?_ ?_ ?_ ?_ ?_ (ih f hf)
      · intro _ _ h; subst h; cases ha
      · intro h; subst h; cases ha
      · intro h; subst h; cases ha
      · intro h; subst h; cases ha
      · intro id h
        cases ha
        case giveBack u i => injection h with h; exact future_ne_user _ _ h.symm
        all_goals cases h
    | reload c p hp => exact fun f h => dl_snap hp _ (by simp) (by simp) (by simp) (by simp) (by simp) (ih f h)
    | lend h g id p hst hp => exact fun f h => dl_snap hst _ (by simp) (by simp) (by simp) (by simp) (by simp) (ih f (up g _ (by simp) (by simp) f h).2)
    | alloc o id uri pw new p hg hr ht ph hp =>
      intro f h
      rcases hp with ⟨rfl, u, rfl⟩ | ⟨t, g, c, rfl, -, -, -, -, rfl⟩
      · show (p.snap _).isSome = true
        rw [hg.keep _ (future_ne_user _ _)]; exact ih f h
      · obtain ⟨hne, h⟩ := up g _ (by simp) (by simp) f h
        show (p.snap _).isSome = true
        rw [hg.keep _ (fun h => hne (future_inj h))]; exact ih f h
    | exec o id net c p ho hst ph hp =>
      intro f h
      have h : s.phase f = .reading ∨ ∃ id r, s.phase f = .returning id r := by
        rcases hp with ⟨rfl, -⟩ | ⟨t, g, -, -, -, -, rfl⟩
        · exact h
        · exact (up g _ (by split <;> simp) (by split <;> simp) f h).2
      exact dl_snap hst _ (by intros; cases D.use net (s.real id) c <;> simp [Use.act]) (by cases D.use net (s.real id) c <;> simp [Use.act]) (by cases D.use net (s.real id) c <;> simp [Use.act])
        (by cases D.use net (s.real id) c <;> simp [Use.act]) (by intros; cases D.use net (s.real id) c <;> simp [Use.act]) (ih f h)
    | next => exact ih
    | fetch t g id net hi hp => exact fun f h => ih f (up g _ (by simp) (by simp) f h).2
    | reset o id ok p hst ph hp =>
      intro f h
      have h : s.phase f = .reading ∨ ∃ id r, s.phase f = .returning id r := by
        rcases hp with ⟨rfl, -⟩ | ⟨t, g, r, -, -, -, rfl⟩
        · exact h
        · exact (up g _ (by split <;> simp) (by split <;> simp) f h).2
      exact dl_snap hst _ (by simp) (by simp) (by simp) (by simp) (by simp) (ih f h)
    | readConf t g p hst hi hp =>
      intro f h
      by_cases hf : f = g
      · subst hf
        cases hst
        show (if future f = future f then some s.pool.conf else _).isSome = true
        rw [if_pos rfl]; rfl
      · refine dl_snap hst _ (by simp) (by simp) (by simp) (by simp) (by simp) (ih f ?_)
        have h : upd s.phase g .reading f = .reading ∨ ∃ id r, upd s.phase g .reading f = .returning id r := h
        rw [upd_other _ _ hf] at h; exact h
    | rereadConf t g id r p hst hi hp =>
      intro f h
      by_cases hf : f = g
      · subst hf
        cases hst
        show (if future f = future f then some s.pool.conf else _).isSome = true
        rw [if_pos rfl]; rfl
      · refine dl_snap hst _ (by simp) (by simp) (by simp) (by simp) (by simp) (ih f ?_)
        have h : upd s.phase g (.returning id r) f = .reading ∨ ∃ i q, upd s.phase g (.returning id r) f = .returning i q := h
        rw [upd_other _ _ hf] at h; exact h
    | giveBack t g id r p hst hi hp =>
      intro f h
      obtain ⟨hne, h⟩ := up g _ (by simp) (by simp) f h
      exact dl_snap hst _ (by simp) (by simp) (by simp) (by simp) (by intro i h; injection h with h; exact hne (future_inj h).symm) (ih f h)

theorem dl_init_eq {s : Sys D} {t f} (h : s.fib.thr t = .initing f) : initing s t = some f := by unfold initing; rw [h]
theorem dl_final_eq {s : Sys D} {t f since} (h : s.fib.thr t = .notifying f since []) : finalizing s t = some f := by unfold finalizing; rw [h]

theorem dl_use {s : Sys D} {o id : Nat} (ho : (o, id) ∈ s.pool.owned) (net : D.Net) (c : D.Cmd) : (Pool.step s.pool ((D.use net (s.real id) c).act o id)).isSome = true := by
  cases D.use net (s.real id) c <;> simp [Use.act, Pool.step, ho]

/-- A thread can go on. -/
theorem dl_enabled {L : Laws D} (hn : Nonempty D.Net) {s : Sys D} (hr : DbAsk.Reachable cmd s) (t f : Nat) (h : s.fib.thr t = .initing f ∨ ∃ since todo, s.fib.thr t = .notifying f since todo) :
    Enabled (DbAsk.step cmd) (Works t) s := by
  have hI := DbAsk.inv L hr
  have hF := hI.fut.flags f
  obtain ⟨net⟩ := hn
  rcases h with h | ⟨since, todo, h⟩
  · obtain ⟨h1, h2⟩ := (Fiber.futInv hI.fut.reach).owner t f h
    have hin := dl_init_eq h
    cases hp : s.phase f with
    | started => exact ⟨.readConf t, .inr (.inr (.inr (.inl rfl))), by simp [DbAsk.step, hin, hp, onPool, Pool.step]⟩
    | reading =>
      obtain ⟨c, hc⟩ := Option.isSome_iff_exists.1 (dl_read hr f (.inl hp))
      refine ⟨.allocate t, .inr (.inr (.inr (.inr (.inl rfl)))), ?_⟩
      obtain ⟨id, new, h3, -⟩ := Pool.allocate_given s.pool (future f) c.idle c.uri c.password
      simp only [DbAsk.step, hin, hp, onAllocate, Pool.step, hc, Option.map_some, h3]
      cases new <;> rfl
    | holding id =>
      have ho := hI.conn.owns f id (by rw [hp]; rfl)
      refine ⟨.execute t net, .inr (.inr (.inr (.inr (.inr (.inl ⟨net, rfl⟩))))), ?_⟩
      obtain ⟨p, hq⟩ := Option.isSome_iff_exists.1 (dl_use ho net (cmd f))
      simp [DbAsk.step, hin, hp, onExecute, ho, hq]
    | executed id => exact ⟨.fetch t net, .inr (.inr (.inr (.inr (.inr (.inr (.inl ⟨net, rfl⟩)))))), by simp [DbAsk.step, hin, hp]⟩
    | ended id r =>
      refine ⟨.fiber (.exit t (if r.isSome then .ok else .threw)), .inl ⟨_, rfl⟩, ?_⟩
      simp [DbAsk.step, onFiber, Fiber.step, h, hp]
    | _ => rw [hp] at hF; simp [Flags, h1, h2] at hF
  · have h1 := (Fiber.futInv hI.fut.reach).notifying t f since todo h
    have h2 := Fiber.init_locked (Fiber.futInv hI.fut.reach) h1
    cases todo with
    | cons k rest =>
      refine ⟨.fiber (.notify t s.fib.clock), .inr (.inl ⟨_, rfl⟩), ?_⟩
      simp [DbAsk.step, onFiber, Fiber.step, h, dl_since hI.fut.reach t f since _ h]
    | nil =>
      have hin := dl_final_eq h
      cases hp : s.phase f with
      | ended id r =>
        have ho := hI.conn.owns f id (by rw [hp]; rfl)
        exact ⟨.reset t true, .inr (.inr (.inr (.inr (.inr (.inr (.inr (.inl ⟨true, rfl⟩))))))), by simp [DbAsk.step, hin, hp, onReset, Pool.step, ho]⟩
      | cleared id r => exact ⟨.rereadConf t, .inr (.inr (.inr (.inr (.inr (.inr (.inr (.inr (.inl rfl)))))))), by simp [DbAsk.step, hin, hp, onPool, Pool.step]⟩
      | returning id r =>
        have ho := hI.conn.owns f id (by rw [hp]; rfl)
        obtain ⟨c, hc⟩ := Option.isSome_iff_exists.1 (dl_read hr f (.inr ⟨_, _, hp⟩))
        exact ⟨.giveBack t, .inr (.inr (.inr (.inr (.inr (.inr (.inr (.inr (.inr rfl)))))))), by simp [DbAsk.step, hin, hp, onPool, Pool.step, ho, hc]⟩
      | over r => exact ⟨.fiber (.finalize t), .inr (.inr (.inl rfl)), by simp [DbAsk.step, onFiber, Fiber.step, h, hp]⟩
      | _ => rw [hp] at hF; simp [Flags, h1, h2] at hF

/-- What a step does to fibers and futures. -/
theorem dl_fib {s a s'} (h : DbAsk.step (D := D) cmd s a = some s') : (fiberAct (some a) = none ∧ s'.fib = s.fib) ∨ ∃ b, a = .fiber b ∧ Fiber.step s.fib b = some s'.fib ∧ ∀ t, b ≠ .exit t .foreign := by
  have hP : ∀ {b q}, onPool s b = some q → q.fib = s.fib := by
    intro b q h; unfold onPool at h; obtain ⟨_, -, rfl⟩ := Option.map_eq_some_iff.1 h; rfl
  have hA : ∀ {b q}, onAllocate s b = some q → q.1.fib = s.fib := by
    intro b q h; unfold onAllocate at h
    split at h
    · cases h
    · split at h
      · cases h; rfl
      · cases h; rfl
      · cases h
  have hE : ∀ {o id net c q}, onExecute s o id net c = some q → q.fib = s.fib := by
    intro o id net c q h; unfold onExecute at h
    split at h
    · obtain ⟨_, -, rfl⟩ := Option.map_eq_some_iff.1 h; rfl
    · cases h
  have hR : ∀ {o id ok q}, onReset s o id ok = some q → q.fib = s.fib := by
    intro o id ok q h; unfold onReset at h; obtain ⟨_, -, rfl⟩ := Option.map_eq_some_iff.1 h; rfl
  cases a with
  | fiber b =>
    refine .inr ⟨b, rfl, ?_⟩
    simp only [DbAsk.step, onFiber] at h
    split at h
    · cases h
    · rename_i fib hf
      rw [hf]
      cases b with
      | exit t e =>
        dsimp only at h
        split at h
        · split at h
          · rename_i id r hp
            by_cases he : e = if r.isSome then .ok else .threw
            · rw [if_pos he] at h
              cases h
              refine ⟨rfl, fun t h => ?_⟩
              injection h with _ h
              rw [h] at he
              split at he <;> exact nomatch he
            · rw [if_neg he] at h; cases h
          · cases h
        · cases h
      | call t f =>
        dsimp only at h
        split at h
        · cases h; exact ⟨rfl, by simp⟩
        · cases h; exact ⟨rfl, by simp⟩
      | finalize t =>
        dsimp only at h
        split at h
        · split at h
          · cases h; exact ⟨rfl, by simp⟩
          · cases h
        · cases h
      | _ => cases h; exact ⟨rfl, by simp⟩
  | user u b =>
    refine .inl ⟨rfl, ?_⟩
    cases b with
    | readConf => simp only [DbAsk.step, onUser] at h; exact hP h
    | allocate uri pw => simp only [DbAsk.step, onUser] at h; obtain ⟨_, hq, rfl⟩ := Option.map_eq_some_iff.1 h; exact hA hq
    | allocateDefault => simp only [DbAsk.step, onUser] at h; obtain ⟨_, hq, rfl⟩ := Option.map_eq_some_iff.1 h; exact hA hq
    | execute id net c => simp only [DbAsk.step, onUser] at h; exact hE h
    | next id net =>
      simp only [DbAsk.step, onUser] at h
      split at h
      · cases h; rfl
      · cases h
    | reset id ok => simp only [DbAsk.step, onUser] at h; exact hR h
    | giveBack id => simp only [DbAsk.step, onUser] at h; exact hP h
    | destroy id => simp only [DbAsk.step, onUser] at h; exact hP h
    | lend id f =>
      simp only [DbAsk.step, onUser] at h
      split at h
      · obtain ⟨q, hq, rfl⟩ := Option.map_eq_some_iff.1 h; exact (hP hq : q.fib = s.fib)
      · cases h
  | reload c => simp only [DbAsk.step] at h; obtain ⟨q, hq, rfl⟩ := Option.map_eq_some_iff.1 h; exact .inl ⟨rfl, (hP hq : q.fib = s.fib)⟩
  | tick n => simp only [DbAsk.step] at h; exact .inl ⟨rfl, hP h⟩
  | _ =>
    refine .inl ⟨rfl, ?_⟩
    simp only [DbAsk.step] at h
    split at h
    · cases h
    · split at h
      · first
        | (cases h; rfl)
        | (obtain ⟨q, hq, rfl⟩ := Option.map_eq_some_iff.1 h
           first | exact (hP hq : q.fib = s.fib) | exact (hA hq : q.1.fib = s.fib) | exact (hE hq : q.fib = s.fib) | exact (hR hq : q.fib = s.fib))
      · cases h

theorem dl_lt {ph : Nat → Phase D} {f : Nat} {x y : Phase D} (hp : ph f = y) (h : dlRank x < dlRank y) : dlRank (upd ph f x f) < dlRank (ph f) := by
  rw [upd_same, hp]; exact h

/-- A thread that runs an initializer and goes on gets closer to its end. -/
theorem dl_works_init {s a s'} (h : DbAsk.step (D := D) cmd s a = some s') {t f : Nat} (ht : s.fib.thr t = .initing f) (ha : Works t a) :
    dlRank (s'.phase f) < dlRank (s.phase f) ∨ ∃ e, a = .fiber (.exit t e) := by
  have hin := dl_init_eq ht
  have hfin : finalizing s t = none := by unfold finalizing; rw [ht]
  rcases ha with ⟨e, rfl⟩ | ⟨v, rfl⟩ | rfl | rfl | rfl | ⟨net, rfl⟩ | ⟨net, rfl⟩ | ⟨ok, rfl⟩ | rfl | rfl
  · exact .inr ⟨_, rfl⟩
  · simp [DbAsk.step, onFiber, Fiber.step, ht] at h
  · simp [DbAsk.step, onFiber, Fiber.step, ht] at h
  · simp only [DbAsk.step, hin] at h
    split at h
    · rename_i hp
      obtain ⟨q, hq, rfl⟩ := Option.map_eq_some_iff.1 h
      obtain ⟨_, -, rfl⟩ := Option.map_eq_some_iff.1 hq
      exact .inl (dl_lt hp (by simp [dlRank]))
    · cases h
  · simp only [DbAsk.step, hin] at h
    split at h
    · rename_i hp
      obtain ⟨q, hq, rfl⟩ := Option.map_eq_some_iff.1 h
      unfold onAllocate at hq
      split at hq
      · cases hq
      · split at hq
        · cases hq; exact .inl (dl_lt hp (by simp [dlRank]))
        · cases hq; exact .inl (dl_lt hp (by simp [dlRank]))
        · cases hq
    · cases h
  · simp only [DbAsk.step, hin] at h
    split at h
    · rename_i hp
      obtain ⟨q, hq, rfl⟩ := Option.map_eq_some_iff.1 h
      unfold onExecute at hq
      split at hq
      · obtain ⟨_, -, rfl⟩ := Option.map_eq_some_iff.1 hq
        exact .inl (dl_lt hp (by split <;> simp [dlRank]))
      · cases hq
    · cases h
  · simp only [DbAsk.step, hin] at h
    split at h
    · rename_i hp; cases h; exact .inl (dl_lt hp (by simp [dlRank]))
    · cases h
  · simp [DbAsk.step, hfin] at h
  · simp [DbAsk.step, hfin] at h
  · simp [DbAsk.step, hfin] at h

/-- A thread that finalizes a future and goes on gets closer to its end. -/
theorem dl_works_final {s a s'} (h : DbAsk.step (D := D) cmd s a = some s') {t f since : Nat} {todo : List Nat} (ht : s.fib.thr t = .notifying f since todo) (ha : Works t a) :
    dlRank (s'.phase f) < dlRank (s.phase f) ∨ (∃ v, a = .fiber (.notify t v)) ∨ a = .fiber (.finalize t) := by
  have hin : initing s t = none := by unfold initing; rw [ht]
  rcases ha with ⟨e, rfl⟩ | ⟨v, rfl⟩ | rfl | rfl | rfl | ⟨net, rfl⟩ | ⟨net, rfl⟩ | ⟨ok, rfl⟩ | rfl | rfl
  · simp [DbAsk.step, onFiber, Fiber.step, ht] at h
  · exact .inr (.inl ⟨_, rfl⟩)
  · exact .inr (.inr rfl)
  · simp [DbAsk.step, hin] at h
  · simp [DbAsk.step, hin] at h
  · simp [DbAsk.step, hin] at h
  · simp [DbAsk.step, hin] at h
  all_goals
    cases todo with
    | cons k rest =>
      have hfin : finalizing s t = none := by unfold finalizing; rw [ht]
      simp [DbAsk.step, hfin] at h
    | nil =>
      simp only [DbAsk.step, dl_final_eq ht] at h
      split at h
      · rename_i hp
        obtain ⟨q, hq, rfl⟩ := Option.map_eq_some_iff.1 h
        obtain ⟨_, -, rfl⟩ := Option.map_eq_some_iff.1 hq
        exact .inl (dl_lt hp (by first | (simp [dlRank]; done) | (split <;> simp [dlRank])))
      · cases h

theorem dl_reach {e : Exec (DbAsk.step (D := D) cmd)} (hl : DbAsk.Live e) (n : Nat) : DbAsk.Reachable cmd (e.st n) :=
  e.always (P := DbAsk.Reachable cmd) 0 hl.start (fun _ _ _ h hs => .step h hs) n (Nat.zero_le _)

/-- An initializer exits. -/
theorem dl_exits {L : Laws D} (hn : Nonempty D.Net) {e : Exec (DbAsk.step (D := D) cmd)} (hl : DbAsk.Live e) (t f n : Nat) (h : (e.st n).fib.thr t = .initing f) :
    ∃ m, n ≤ m ∧ (∃ since todo, (e.st m).fib.thr t = .notifying f since todo) ∧ (∃ x, e.act (m - 1) = some (.fiber (.exit t x))) ∧ n < m := by
  have key : ∀ s a s', DbAsk.step cmd s a = some s' → s.fib.thr t = .initing f → (∀ x, a ≠ .fiber (.exit t x)) → s'.fib.thr t = .initing f := by
    intro s a s' hs ht hx
    rcases dl_fib hs with ⟨-, h2⟩ | ⟨b, rfl, h2, -⟩
    · rw [h2]; exact ht
    · exact dl_initing h2 ht (fun x hb => hx x (by rw [hb]))
  have exits : ∀ s x s', DbAsk.step cmd s (.fiber (.exit t x)) = some s' → s.fib.thr t = .initing f → ∃ since todo, s'.fib.thr t = .notifying f since todo := by
    intro s x s' hs ht
    rcases dl_fib hs with ⟨h1, -⟩ | ⟨b, hb, h2, h3⟩
    · cases h1
    · cases hb
      simp only [Fiber.step, ht] at h2
      injection h2 with h2
      rw [← h2]
      unfold Fiber.exit
      split
      · exact absurd rfl (h3 t)
      · exact ⟨_, _, upd_same _ _ _⟩
  have aux : ∀ k n, (e.st n).fib.thr t = .initing f → dlRank ((e.st n).phase f) ≤ k → ∃ m, n ≤ m ∧ (e.st m).fib.thr t = .initing f ∧ ∃ x, e.act m = some (.fiber (.exit t x)) := by
    intro k
    induction k with
    | zero =>
      intro n hn0 h0
      exfalso
      obtain ⟨a, ha, hs⟩ := dl_enabled (L := L) hn (dl_reach hl n) t f (.inl hn0)
      obtain ⟨s', hs⟩ := Option.isSome_iff_exists.1 hs
      rcases dl_works_init hs hn0 ha with h | ⟨x, rfl⟩
      · omega
      · simp only [DbAsk.step, onFiber] at hs
        split at hs
        · cases hs
        · rw [hn0] at hs
          dsimp only at hs
          split at hs
          · rename_i hp; rw [hp] at h0; simp [dlRank] at h0
          · cases hs
    | succ k ih =>
      intro n hn0 h0
      apply Classical.byContradiction
      intro hno
      have stay : ∀ m, n ≤ m → (e.st m).fib.thr t = .initing f ∧ dlRank ((e.st m).phase f) = k + 1 := by
        intro m hm
        induction m with
        | zero =>
          have : n = 0 := by omega
          subst this
          refine ⟨hn0, Nat.le_antisymm h0 (Nat.lt_of_not_le fun h => hno (ih 0 hn0 h))⟩
        | succ m ihm =>
          by_cases hm' : n = m + 1
          · rw [← hm']
            exact ⟨hn0, Nat.le_antisymm h0 (Nat.lt_of_not_le fun h => hno (ih n hn0 h))⟩
          · obtain ⟨h1, h2⟩ := ihm (by omega)
            rcases e.next m with ⟨-, h3⟩ | ⟨a, h3, h4⟩
            · rw [h3]; exact ⟨h1, h2⟩
            · have h5 : (e.st (m + 1)).fib.thr t = .initing f := key _ _ _ h4 h1 fun x hx => hno ⟨m, by omega, h1, x, by rw [h3, hx]⟩
              have h6 := dl_rank (L := L) h4 (dl_reach hl m) f
              refine ⟨h5, Nat.le_antisymm (by omega) (Nat.lt_of_not_le fun h => hno ?_)⟩
              obtain ⟨j, hj, hq⟩ := ih (m + 1) h5 h
              exact ⟨j, by omega, hq⟩
      obtain ⟨m, hm, a, ha, hw⟩ := hl.works t n fun m hm => ⟨m, Nat.le_refl _, dl_enabled (L := L) hn (dl_reach hl m) t f (.inl (stay m hm).1)⟩
      rcases e.next m with ⟨h3, -⟩ | ⟨b, h3, h4⟩
      · rw [h3] at ha; cases ha
      · rw [h3] at ha; cases ha
        have h5 := (stay m hm).2
        have h6 := (stay (m + 1) (by omega)).2
        rcases dl_works_init h4 (stay m hm).1 hw with h7 | ⟨x, rfl⟩
        · omega
        · exact hno ⟨m, hm, (stay m hm).1, x, h3⟩
  obtain ⟨m, hm, h1, x, h2⟩ := aux _ n h (Nat.le_refl _)
  refine ⟨m + 1, by omega, ?_, ⟨x, h2⟩, by omega⟩
  rcases e.next m with ⟨h3, -⟩ | ⟨b, h3, h4⟩
  · rw [h3] at h2; cases h2
  · rw [h3] at h2; cases h2
    exact exits _ _ _ h4 h1

/-- A finalizer exits. -/
theorem dl_finals {L : Laws D} (hn : Nonempty D.Net) {e : Exec (DbAsk.step (D := D) cmd)} (hl : DbAsk.Live e) (t f n since : Nat) (todo : List Nat) (h : (e.st n).fib.thr t = .notifying f since todo) :
    ∃ m, n ≤ m ∧ Fiber.Ev.finalized f ∈ (e.st m).fib.trace := by
  refine e.leads_measure (T := Works t) (P := fun s => DbAsk.Reachable cmd s ∧ ∃ todo, s.fib.thr t = .notifying f since todo) (Q := fun s => Fiber.Ev.finalized f ∈ s.fib.trace)
    (fun s => dlRank (s.phase f) + match s.fib.thr t with | .notifying _ _ todo => todo.length | _ => 0) (hl.works t) ?_ ?_ ?_ n ⟨dl_reach hl n, todo, h⟩
  · intro s a s' ⟨hr, todo, ht⟩ hs
    have h1 := dl_rank (L := L) hs hr f
    rcases dl_fib hs with ⟨-, h2⟩ | ⟨b, rfl, h2, -⟩
    · refine .inl ⟨⟨.step hr hs, todo, by rw [h2]; exact ht⟩, ?_⟩
      rw [h2]; exact Nat.add_le_add_right h1 _
    · rcases dl_notifying h2 ht with ⟨h3, -, -⟩ | ⟨k, rest, rfl, h3⟩ | ⟨-, h3⟩
      · refine .inl ⟨⟨.step hr hs, todo, h3⟩, ?_⟩
        rw [h3, ht]; exact Nat.add_le_add_right h1 _
      · refine .inl ⟨⟨.step hr hs, rest, h3⟩, ?_⟩
        rw [h3, ht]; exact Nat.add_le_add h1 (by simp)
      · exact .inr h3
  · intro s ⟨hr, todo, ht⟩
    exact dl_enabled (L := L) hn hr t f (.inr ⟨_, _, ht⟩)
  · intro s a s' ⟨hr, todo, ht⟩ ha hs
    have h1 := dl_rank (L := L) hs hr f
    have h4 := dl_works_final hs ht ha
    rcases dl_fib hs with ⟨h5, h2⟩ | ⟨b, rfl, h2, -⟩
    · refine .inl ⟨⟨.step hr hs, todo, by rw [h2]; exact ht⟩, ?_⟩
      rcases h4 with h4 | ⟨v, rfl⟩ | rfl
      ·        rw [h2]; exact Nat.add_lt_add_right h4 _
      · cases h5
      · cases h5
    · rcases dl_notifying h2 ht with ⟨h3, h6, h7⟩ | ⟨k, rest, rfl, h3⟩ | ⟨-, h3⟩
      · refine .inl ⟨⟨.step hr hs, todo, h3⟩, ?_⟩
        rcases h4 with h4 | ⟨v, h⟩ | h
        ·          rw [h3, ht]; exact Nat.add_lt_add_right h4 _
        · cases h; exact absurd rfl (h6 v)
        · cases h; exact absurd rfl h7
      · refine .inl ⟨⟨.step hr hs, rest, h3⟩, ?_⟩
        rw [h3, ht]; exact Nat.add_lt_add_of_le_of_lt h1 (by simp)
      · exact .inr h3

/-- In this model, initializers do not exit by foreign exceptions. -/
theorem dl_foreign {s} (h : DbAsk.Reachable (D := D) cmd s) (f : Nat) : s.fib.trace.count (.initEnded f .foreign) = 0 := by
  refine List.count_eq_zero.2 ?_
  induction h with
  | init => exact fun h => nomatch h
  | @step s s' a hr hs ih =>
    rcases dl_fib hs with ⟨-, h⟩ | ⟨b, rfl, h, hx⟩
    · rw [h]; exact ih
    · have key : ∀ c : Fiber.Case s.fib s'.fib, Fiber.Ev.initEnded f .foreign ∉ s'.fib.trace := by
        intro c
        generalize hg : s'.fib = g at c h
        cases c with
        | escape t q ht =>
          exfalso
          by_cases he : ∃ e, b = .exit t e
          · obtain ⟨e, rfl⟩ := he
            simp only [Fiber.step, ht] at h
            injection h with h
            have h := congrArg Fiber.Sys.trace h
            unfold Fiber.exit at h
            split at h
            · exact hx t rfl
            · simp at h
          · have h := dl_initing h ht (fun e hb => he ⟨e, hb⟩)
            simp at h
        | complete t q e ht he => simp [ih, Ne.symm he]
        | launch v => simp [Fiber.launch, ih]
        | _ => simp [ih]
      exact key (Fiber.step_case h)

/-- A future that has completed is finalized, or some thread is about to. -/
theorem dl_open {s} (h : Fiber.Reachable s) (f : Nat) : (s.fut f).init = true → Fiber.Ev.finalized f ∈ s.trace ∨ ∃ t since todo, s.thr t = .notifying f since todo := by
  induction h with
  | init => exact fun h => nomatch h
  | @step s s' a hr hs ih =>
    have hF := Fiber.futInv hr
    obtain ⟨l, hl⟩ := Fiber.step_grows hs
    have grow : Fiber.Ev.finalized f ∈ s.trace → Fiber.Ev.finalized f ∈ s'.trace := fun h => by rw [hl]; exact List.mem_append_right _ h
    have same : s'.fut = s.fut → s'.thr = s.thr → (s'.fut f).init = true → Fiber.Ev.finalized f ∈ s'.trace ∨ ∃ t since todo, s'.thr t = .notifying f since todo := by
      intro h1 h2 h3
      rw [h1] at h3
      rw [h2]
      exact (ih h3).imp grow id
    have up : ∀ t0 x, (∀ since todo, s.thr t0 = .notifying f since todo → ∃ since todo, x = .notifying f since todo) → (s.fut f).init = true →
        Fiber.Ev.finalized f ∈ s'.trace ∨ ∃ t since todo, upd s.thr t0 x t = .notifying f since todo := by
      intro t0 x hx hi
      rcases ih hi with h | ⟨t, since, todo, h⟩
      · exact .inl (grow h)
      · by_cases ht : t = t0
        · subst ht
          obtain ⟨since, todo, h⟩ := hx _ _ h
          exact .inr ⟨t, since, todo, by rw [upd_same]; exact h⟩
        · exact .inr ⟨t, since, todo, by rw [upd_other _ _ ht]; exact h⟩
    have fut : ∀ g (x : Fiber.Fut), x.init = (s.fut g).init → (upd s.fut g x f).init = true → (s.fut f).init = true := by
      intro g x hx h
      unfold upd at h
      split at h
      · rename_i hf; rw [hf, ← hx]; exact h
      · exact h
    cases Fiber.step_case hs with
    | call t g ht => exact fun h => up t _ (by intro _ _ h; rw [ht] at h; cases h) (fut g { s.fut g with locked := true } rfl h)
    | escape t g ht => exact fun h => up t _ (by intro _ _ h; rw [ht] at h; cases h) (fut g { s.fut g with locked := false } rfl h)
    | complete t g e ht =>
      intro h
      by_cases hf : f = g
      · subst hf; exact .inr ⟨t, _, _, upd_same _ _ _⟩
      · refine up t _ (by intro _ _ h; rw [ht] at h; cases h) ?_
        have h : (upd s.fut g _ f).init = true := h
        rw [upd_other _ _ hf] at h; exact h
    | notify t g since k v todo ht => exact up t _ (by intro _ _ h; rw [ht] at h; cases h; exact ⟨_, _, rfl⟩)
    | gone t g since k todo ht => exact up t _ (by intro _ _ h; rw [ht] at h; cases h; exact ⟨_, _, rfl⟩)
    | finalize t g since ht =>
      by_cases hf : f = g
      · subst hf; exact fun _ => .inl (List.mem_cons_self ..)
      · exact up t _ (by intro _ _ h; rw [ht] at h; cases h; exact absurd rfl hf)
    | register k g hp =>
      intro h
      exact (ih (fut g { s.fut g with waiters := (s.fut g).waiters ++ [k] } rfl h)).imp grow id
    | _ => exact same rfl rfl

theorem dl_owner {s : Pool.Sys} (h : Pool.Reachable s) {o q id : Nat} (h1 : (o, id) ∈ s.owned) (h2 : (q, id) ∈ s.owned) : o = q := by
  have h3 := ((Pool.inv h).own _ _).1 h1
  have h4 := ((Pool.inv h).own _ _).1 h2
  rw [h3] at h4
  injection h4

theorem dl_reset (h : Known D) (ok : Bool) (c : D.Conn) : (D.reset ok c).2 = D.clear (D.reset ok c).1 := by
  cases h with
  | redis => rfl
  | mysql => rfl
  | mongo => rfl

/-- Connections that have been reset are clear when they are returned; and after that, they have been dealt with. -/
structure DlClear (s : Sys D) : Prop where
  clear : ∀ f id r, s.phase f = .cleared id r ∨ s.phase f = .returning id r → (s.pool.conn id).clear = true
  over : ∀ f r, s.phase f = .over r → Dealt s f

theorem dl_clear (hD : Known D) {s : Sys D} (h : DbAsk.Reachable cmd s) : DlClear s := by
  obtain ⟨L⟩ := dbask_laws hD
  induction h with
  | init => exact ⟨fun f id r h => (by rcases h with h | h <;> cases h), fun f r h => (by cases h)⟩
  | @step s s' a hr hs ih =>
    have hI := (DbAsk.inv L hr).conn
    have up : ∀ g (x : Phase D), (∀ id r, x ≠ .cleared id r) → (∀ id r, x ≠ .returning id r) → (∀ r, x ≠ .over r) → ∀ f,
        (∀ id r, (upd s.phase g x f = .cleared id r ∨ upd s.phase g x f = .returning id r) → f ≠ g ∧ (s.phase f = .cleared id r ∨ s.phase f = .returning id r)) ∧
        (∀ r, upd s.phase g x f = .over r → s.phase f = .over r) := by
      intro g x h1 h2 h3 f
      unfold upd
      split
      · exact ⟨fun id r h => by rcases h with h | h; exact absurd h (h1 _ _); exact absurd h (h2 _ _), fun r h => absurd h (h3 r)⟩
      · rename_i hf; exact ⟨fun id r h => ⟨hf, h⟩, fun r h => h⟩
    have mono : ∀ {q : Sys D} (f r), s.phase f = .over r → (∃ l, q.pool.trace = l ++ s.pool.trace) → (∀ c ∈ s.confs, c ∈ q.confs) → Dealt q f := by
      intro q f r h ht hc
      obtain ⟨id, uri, h1, h2⟩ := ih.over f r h
      have ht' := ht
      obtain ⟨l, hl⟩ := ht'
      have hm : ∀ x, x ∈ s.pool.trace → x ∈ q.pool.trace := fun x hx => by rw [hl]; exact List.mem_append_right _ hx
      exact ⟨id, uri, h1.mono ht hc, h2.imp (hm _) fun h => h.imp (hm _) fun ⟨h3, c, h4, h5⟩ => ⟨hm _ h3, c, hc c h4, h5⟩⟩
    have owned : ∀ f id r, (s.phase f = .cleared id r ∨ s.phase f = .returning id r) → (future f, id) ∈ s.pool.owned := fun f id r h =>
      hI.owns f id (by rcases h with h | h <;> rw [h] <;> rfl)
    cases DbAsk.step_case hs with
    | fiber a fib hst => exact ⟨ih.clear, fun f r h => mono f r h ⟨[], rfl⟩ fun _ h => h⟩
    | begin_ t g fib hst hi =>
      have hu := up g (match s.phase g with | .lent id => .holding id | _ => .started) (by split <;> simp) (by split <;> simp) (by split <;> simp)
      exact ⟨fun f id r h => ih.clear f id r ((hu f).1 id r h).2, fun f r h => mono f r ((hu f).2 r h) ⟨[], rfl⟩ fun _ h => h⟩
    | quiet a p hp ha =>
      have ht := Pool.step_trace hp
      refine ⟨fun f id r h => ?_, fun f r h => mono f r h ht fun _ h => h⟩
      have h1 := ih.clear f id r h
      cases ha with
      | tick n => cases hp; exact h1
      | read o => cases hp; exact h1
      | giveBack o i =>
        simp only [Pool.step] at hp
        split at hp
        · obtain ⟨c, hc, rfl⟩ := Option.map_eq_some_iff.1 hp
          show ((Pool.giveBack s.pool (user o) i c).conn id).clear = true
          rw [(Pool.giveBack_same (c' := c) ..).2.2.2.1]; exact h1
        · cases hp
      | destroy o i =>
        simp only [Pool.step] at hp
        split at hp
        · cases hp; exact h1
        · cases hp
    | reload c p hp =>
      have ht := Pool.step_trace hp
      cases hp
      exact ⟨ih.clear, fun f r h => mono f r h ht fun _ h => .tail _ h⟩
    | lend h g id p hst hp =>
      have ht := Pool.step_trace hst
      have hu := up g (.lent id) (by simp) (by simp) (by simp)
      refine ⟨fun f i r h => ?_, fun f r h => mono f r ((hu f).2 r h) ht fun _ h => h⟩
      have h1 := ih.clear f i r ((hu f).1 i r h).2
      simp only [Pool.step] at hst
      split at hst
      · cases hst; exact h1
      · cases hst
    | alloc o id uri pw new p hg hrp ht ph hp =>
      have hu : ∀ f, (∀ id r, (ph f = .cleared id r ∨ ph f = .returning id r) → (s.phase f = .cleared id r ∨ s.phase f = .returning id r)) ∧ (∀ r, ph f = .over r → s.phase f = .over r) := by
        rcases hp with ⟨rfl, -⟩ | ⟨t, g, c, -, -, -, -, -, rfl⟩
        · exact fun f => ⟨fun _ _ h => h, fun _ h => h⟩
        · have hu := up g (.holding id) (by simp) (by simp) (by simp)
          exact fun f => ⟨fun _ _ h => ((hu f).1 _ _ h).2, fun _ h => (hu f).2 _ h⟩
      refine ⟨fun f i r h => ?_, fun f r h => mono f r ((hu f).2 r h) ht fun _ h => h⟩
      have h0 := (hu f).1 i r h
      have h1 := ih.clear f i r h0
      have h2 := Pool.owned_lt (Pool.inv hI.reach) (owned f i r h0)
      show (p.conn i).clear = true
      cases new with
      | false => rw [(hg.old rfl).2.1]; exact h1
      | true =>
        rw [(hg.fresh rfl).2.2]
        show (if i = s.pool.next then _ else s.pool.conn i).clear = true
        rw [if_neg (by omega)]; exact h1
    | exec o id net c p ho hst ph hp =>
      have ht := Pool.step_trace hst
      have hu : ∀ f, (∀ i r, (ph f = .cleared i r ∨ ph f = .returning i r) → i ≠ id ∧ (s.phase f = .cleared i r ∨ s.phase f = .returning i r)) ∧ (∀ r, ph f = .over r → s.phase f = .over r) := by
        rcases hp with ⟨rfl, u, rfl⟩ | ⟨t, g, rfl, -, -, -, rfl⟩
        · exact fun f => ⟨fun i r h => ⟨fun hi => future_ne_user _ _ (dl_owner hI.reach (owned f i r h) (hi ▸ ho)), h⟩, fun _ h => h⟩
        · have hu := up g (if (D.execute net (s.real id) c).2 then .executed id else .ended id none) (by split <;> simp) (by split <;> simp) (by split <;> simp)
          refine fun f => ⟨fun i r h => ?_, fun _ h => (hu f).2 _ h⟩
          obtain ⟨h1, h2⟩ := (hu f).1 _ _ h
          exact ⟨fun hi => h1 (future_inj (dl_owner hI.reach (owned f i r h2) (hi ▸ ho))), h2⟩
      refine ⟨fun f i r h => ?_, fun f r h => mono f r ((hu f).2 r h) ht fun _ h => h⟩
      obtain ⟨h0, h1⟩ := (hu f).1 i r h
      have h2 := ih.clear f i r h1
      show (p.conn i).clear = true
      cases hq : D.use net (s.real id) c <;> rw [hq] at hst <;> simp only [Use.act, Pool.step, ho, if_true] at hst <;> cases hst
      · exact h2
      · show (if i = id then _ else s.pool.conn i).clear = true
        rw [if_neg h0]; exact h2
      · show (if i = id then _ else s.pool.conn i).clear = true
        rw [if_neg h0]; exact h2
    | next => exact ⟨ih.clear, fun f r h => mono f r h ⟨[], rfl⟩ fun _ h => h⟩
    | fetch t g id net hi hp =>
      have hu := up g (.ended id (D.fetch net (s.real id)).2) (by simp) (by simp) (by simp)
      exact ⟨fun f i r h => ih.clear f i r ((hu f).1 i r h).2, fun f r h => mono f r ((hu f).2 r h) ⟨[], rfl⟩ fun _ h => h⟩
    | reset o id ok p hst ph hp =>
      have ht := Pool.step_trace hst
      simp only [Pool.step] at hst
      split at hst
      case isFalse => cases hst
      rename_i ho
      cases hst
      have hlt := Pool.owned_lt (Pool.inv hI.reach) ho
      have hclear : (Pool.resetConn s.pool.kind ok (s.pool.conn id)).clear = (D.reset ok (s.real id)).2 := by
        rw [dl_reset hD, hI.kind]
        exact (L.R_view _ _ (L.R_reset ok _ _ (hI.agree id hlt))).2
      have same : ∀ f i r, (s.phase f = .cleared i r ∨ s.phase f = .returning i r) → future f ≠ o → (if i = id then Pool.resetConn s.pool.kind ok (s.pool.conn id) else s.pool.conn i).clear = true := by
        intro f i r h hne
        have hne' : i ≠ id := fun hi => hne (dl_owner hI.reach (owned f i r h) (by rw [hi]; exact ho))
        rw [if_neg hne']
        exact ih.clear f i r h
      rcases hp with ⟨rfl, u, rfl⟩ | ⟨t, g, q, rfl, -, hph, rfl⟩
      · exact ⟨fun f i r h => same f i r h (future_ne_user _ _), fun f r h => mono f r h ht fun _ h => h⟩
      · refine ⟨fun f i r h => ?_, fun f r h => ?_⟩
        · by_cases hf : f = g
          · subst hf
            simp only [upd_same] at h
            split at h
            · rename_i hc
              have hi : i = id := by rcases h with h | h <;> cases h; rfl
              subst hi
              show (if i = i then _ else _ : Pool.Conn).clear = true
              rw [if_pos rfl, hclear]; exact hc
            · rcases h with h | h <;> cases h
          · simp only [upd_other _ _ hf] at h
            exact same f i r h (fun h => hf (future_inj h))
        · by_cases hf : f = g
          · subst hf
            simp only [upd_same] at h
            split at h
            · cases h
            · rename_i hc
              refine ⟨id, _, (hI.from_ f id (by rw [hph]; rfl)).mono ht fun _ h => h, .inr (.inl ?_)⟩
              show Pool.Ev.reset id false ∈ Pool.Ev.reset id (Pool.resetConn s.pool.kind ok (s.pool.conn id)).clear :: s.pool.trace
              rw [hclear, Bool.eq_false_iff.2 hc]
              exact List.mem_cons_self ..
          · simp only [upd_other _ _ hf] at h
            exact mono f r h ht fun _ h => h
    | readConf t g p hst hi hp =>
      have hu := up g (.reading) (by simp) (by simp) (by simp)
      cases hst
      exact ⟨fun f i r h => ih.clear f i r ((hu f).1 i r h).2, fun f r h => mono f r ((hu f).2 r h) ⟨[], rfl⟩ fun _ h => h⟩
    | rereadConf t g id q p hst hi hp =>
      cases hst
      refine ⟨fun f i r h => ?_, fun f r h => ?_⟩
      · by_cases hf : f = g
        · subst hf
          simp only [upd_same] at h
          have h : i = id := by rcases h with h | h <;> cases h; rfl
          subst h
          exact ih.clear f i q (.inl hp)
        · simp only [upd_other _ _ hf] at h
          exact ih.clear f i r h
      · by_cases hf : f = g
        · subst hf
          simp only [upd_same] at h
          cases h
        · simp only [upd_other _ _ hf] at h
          exact mono f r h ⟨[], rfl⟩ fun _ h => h
    | giveBack t g id q p hst hi hp =>
      have ht := Pool.step_trace hst
      simp only [Pool.step] at hst
      split at hst
      case isFalse => cases hst
      obtain ⟨c, hc, rfl⟩ := Option.map_eq_some_iff.1 hst
      refine ⟨fun f i r h => ?_, fun f r h => ?_⟩
      · show ((Pool.giveBack s.pool (future g) id c).conn i).clear = true
        rw [(Pool.giveBack_same (c' := c) ..).2.2.2.1]
        by_cases hf : f = g
        · subst hf
          simp only [upd_same] at h
          rcases h with h | h <;> cases h
        · simp only [upd_other _ _ hf] at h
          exact ih.clear f i r h
      · by_cases hf : f = g
        · subst hf
          refine ⟨id, _, (hI.from_ f id (by rw [hp]; rfl)).mono ht fun _ h => h, ?_⟩
          have hcl := ih.clear f id q (.inr hp)
          show Pool.Ev.pooled (future f) id ∈ (Pool.giveBack s.pool (future f) id c).trace ∨ Pool.Ev.reset id false ∈ (Pool.giveBack s.pool (future f) id c).trace ∨
            (Pool.Ev.refused (future f) id ∈ (Pool.giveBack s.pool (future f) id c).trace ∧ ∃ c ∈ s.confs, c.size = 0)
          unfold Pool.giveBack
          simp only [hcl, Bool.not_true]
          by_cases hz : c.size = 0
          · refine .inr (.inr ⟨?_, c, hI.snap _ _ hc, hz⟩)
            rw [if_neg (by simp), if_pos hz]
            exact List.mem_cons_self ..
          · left
            rw [if_neg (by simp), if_neg hz]
            exact List.mem_cons_self ..
        · simp only [upd_other _ _ hf] at h
          exact mono f r h ht fun _ h => h

/-- A future is finalized after its connection has been dealt with. -/
theorem dl_over {L : Laws D} {s : Sys D} (h : DbAsk.Reachable cmd s) (f : Nat) (hf : Fiber.Ev.finalized f ∈ s.fib.trace) : ∃ r, s.phase f = .over r := by
  induction h with
  | init => cases hf
  | @step s s' a hr hs ih =>
    have keep : Fiber.Ev.finalized f ∈ s.fib.trace → ∃ r, s'.phase f = .over r := by
      intro h
      obtain ⟨r, h1⟩ := ih h
      have h2 := dl_rank (L := L) hs hr f
      rw [h1] at h2
      cases h3 : s'.phase f with
      | over r => exact ⟨r, rfl⟩
      | _ => rw [h3] at h2; simp [dlRank] at h2
    rcases dl_fib hs with ⟨-, h⟩ | ⟨b, rfl, h, -⟩
    · rw [h] at hf; exact keep hf
    · by_cases hold : Fiber.Ev.finalized f ∈ s.fib.trace
      · exact keep hold
      have key : ∀ g, s'.fib = g → Fiber.Case s.fib g → ∃ t, b = .finalize t ∧ ∃ since, s.fib.thr t = .notifying f since [] := by
        intro g hg c
        rw [hg] at hf h
        cases c with
        | finalize t q since ht =>
          have hq : q = f := by
            rcases List.mem_cons.1 hf with hf | hf
            · cases hf; rfl
            · exact absurd hf hold
          subst hq
          rcases dl_notifying h ht with ⟨h3, -, -⟩ | ⟨k, rest, h3, -⟩ | ⟨h3, -⟩
          · simp at h3
          · cases h3
          · exact ⟨t, h3, since, ht⟩
        | launch v => simp [Fiber.launch, hold] at hf
        | _ => simp [hold] at hf
      obtain ⟨t, rfl, since, ht⟩ := key _ rfl (Fiber.step_case h)
      simp only [DbAsk.step, onFiber] at hs
      split at hs
      · cases hs
      · rw [ht] at hs
        dsimp only at hs
        split at hs
        · rename_i r hp; cases hs; exact ⟨r, hp⟩
        · cases hs

theorem dl_mem {L : Laws D} {s : Sys D} (h : DbAsk.Reachable cmd s) (x : Fiber.Ev) : Item.fiber x ∈ s.log ↔ x ∈ s.fib.trace := by
  rw [← List.mem_reverse (as := s.fib.trace), ← (DbAsk.inv L h).fut.log]
  unfold fibers
  rw [List.mem_filterMap]
  constructor
  · exact fun h => ⟨_, h, rfl⟩
  · rintro ⟨y, h1, h2⟩
    split at h2
    · cases h2
    · cases h2; exact h1

theorem dl_net (h : Known D) : Nonempty D.Net := by
  cases h with
  | redis => exact ⟨dbaskServer [] (.status [])⟩
  | mysql => exact ⟨exampleMysql⟩
  | mongo => exact ⟨exampleMongo []⟩

/-- C128: a query whose execution has begun completes. -/
theorem C128_completes (hD : Known D) (e : Exec (DbAsk.step cmd)) (hl : DbAsk.Live e) (n f : Nat) (h : Item.fiber (.initBegan f) ∈ (e.st n).log) :
    ∃ m, n ≤ m ∧ Item.fiber (.completed f) ∈ (e.st m).log := by
  obtain ⟨L⟩ := dbask_laws hD
  have hr := dl_reach hl n
  have hF := Fiber.futInv (DbAsk.inv L hr).fut.reach
  have h1 := hF.begins f
  rw [dl_foreign hr f] at h1
  have h2 := List.count_pos_iff.2 ((dl_mem (L := L) hr _).1 h)
  cases h3 : ((e.st n).fib.fut f).init with
  | true => exact ⟨n, Nat.le_refl _, (dl_mem (L := L) hr _).2 ((hF.completed f).1 h3)⟩
  | false =>
    cases h4 : ((e.st n).fib.fut f).locked with
    | false => simp [h3, h4] at h1; omega
    | true =>
      obtain ⟨t, ht⟩ := hF.held f h4
      obtain ⟨m, hm, ⟨since, todo, h5⟩, -⟩ := dl_exits (L := L) (dl_net hD) hl t f n ht
      have hr' := dl_reach hl m
      have hF' := Fiber.futInv (DbAsk.inv L hr').fut.reach
      exact ⟨m, hm, (dl_mem (L := L) hr' _).2 ((hF'.completed f).1 (hF'.notifying t f since todo h5))⟩

/-- C128: then its execution ends, and its connection has been dealt with. -/
theorem C128_finalizes (hD : Known D) (e : Exec (DbAsk.step cmd)) (hl : DbAsk.Live e) (n f : Nat) (h : Item.fiber (.initBegan f) ∈ (e.st n).log) :
    ∃ m, n ≤ m ∧ Item.fiber (.finalized f) ∈ (e.st m).log ∧ Dealt (e.st m) f := by
  obtain ⟨L⟩ := dbask_laws hD
  obtain ⟨m, hm, h1⟩ := C128_completes hD e hl n f h
  have hr := dl_reach hl m
  have hF := DbAsk.inv L hr
  have fin : ∀ j, n ≤ j → Fiber.Ev.finalized f ∈ (e.st j).fib.trace → ∃ m, n ≤ m ∧ Item.fiber (.finalized f) ∈ (e.st m).log ∧ Dealt (e.st m) f := by
    intro j hj h
    have hr := dl_reach hl j
    obtain ⟨r, hp⟩ := dl_over (L := L) hr f h
    exact ⟨j, hj, (dl_mem (L := L) hr _).2 h, (dl_clear hD hr).over f r hp⟩
  rcases dl_open hF.fut.reach f (((Fiber.futInv hF.fut.reach).completed f).2 ((dl_mem (L := L) hr _).1 h1)) with h2 | ⟨t, since, todo, h2⟩
  · exact fin m hm h2
  · obtain ⟨j, hj, h3⟩ := dl_finals (L := L) (dl_net hD) hl t f m since todo h2
    exact fin j (by omega) h3

/-- C128: a fiber that has begun to wait for it is notified, unless it does not exist any more. -/
theorem C128_notifies (hD : Known D) (e : Exec (DbAsk.step cmd)) (hl : DbAsk.Live e) (n f k : Nat) (h : Item.fiber (.initBegan f) ∈ (e.st n).log) (hw : Item.fiber (.waits f k) ∈ (e.st n).log) :
    ∃ m, n ≤ m ∧ (Item.fiber (.notified f k) ∈ (e.st m).log ∨ Item.fiber (.removed k) ∈ (e.st m).log) := by
  obtain ⟨L⟩ := dbask_laws hD
  obtain ⟨m, hm, h1, -⟩ := C128_finalizes hD e hl n f h
  have hr := dl_reach hl m
  have hF := DbAsk.inv L hr
  have hG := Fiber.regInv hF.fut.reach
  have h2 := (dl_mem (L := L) hr _).1 h1
  have hw' : Fiber.Ev.waits f k ∈ (e.st m).fib.trace := by
    refine e.always (P := fun s => Fiber.Ev.waits f k ∈ s.fib.trace) n ((dl_mem (L := L) (dl_reach hl n) _).1 hw) ?_ m hm
    intro s a s' hs hst
    rcases dl_fib hst with ⟨-, h⟩ | ⟨b, -, h, -⟩
    · rw [h]; exact hs
    · obtain ⟨l, hl⟩ := Fiber.step_grows h
      rw [hl]; exact List.mem_append_right _ hs
  refine ⟨m, hm, ?_⟩
  rcases hG.reg f k hw' with h3 | ⟨t, since, todo, h3, -⟩ | h3 | h3
  · rw [(Fiber.futInv hF.fut.reach).empty f ((Fiber.futInv hF.fut.reach).final f h2)] at h3; exact nomatch h3
  · exact absurd h3 (hG.fin f h2 t since todo)
  · exact .inl ((dl_mem (L := L) hr _).2 h3)
  · exact .inr ((dl_mem (L := L) hr _).2 (hG.gone f k h3))

/-- What fibers do in an execution. -/
def dlFibers (e : Exec (DbAsk.step (D := D) cmd)) : Exec Fiber.step where
  st n := (e.st n).fib
  act n := fiberAct (e.act n)
  ok n := by
    rcases e.next n with ⟨h1, h2⟩ | ⟨a, h1, h2⟩
    · rw [h1, h2]; rfl
    · rw [h1]
      rcases dl_fib h2 with ⟨h3, h4⟩ | ⟨b, rfl, h4, -⟩
      · rw [h3]; exact h4
      · exact h4

theorem dl_live (hD : Known D) {e : Exec (DbAsk.step (D := D) cmd)} (hl : DbAsk.FiberLive e) : Fiber.Live (dlFibers e) := by
  obtain ⟨L⟩ := dbask_laws hD
  refine ⟨(DbAsk.inv L hl.start).fut.reach, hl.warn, hl.fail, hl.clock, fun n h => ?_, fun t n h => ?_, fun t => ?_, hl.body⟩
  · obtain ⟨m, a, hm, h1, h2⟩ := hl.sched n h
    exact ⟨m, hm, a, by show fiberAct (e.act m) = _; rw [h1]; rfl, h2⟩
  · obtain ⟨m, hm, a, ⟨x, rfl⟩, h1⟩ := h n (Nat.le_refl _)
    have h2 : ∃ f, (e.st m).fib.thr t = .initing f := by
      have h1 : (Fiber.step (e.st m).fib (.exit t x)).isSome = true := h1
      cases h3 : (e.st m).fib.thr t with
      | initing f => exact ⟨f, rfl⟩
      | _ => simp [Fiber.step, h3] at h1
    obtain ⟨f, h2⟩ := h2
    obtain ⟨j, hj, -, ⟨y, h3⟩, h4⟩ := dl_exits (L := L) (dl_net hD) hl.toLive t f m h2
    exact ⟨j - 1, by omega, _, by show fiberAct (e.act (j - 1)) = _; rw [h3]; rfl, ⟨y, rfl⟩⟩
  · obtain ⟨n, h⟩ := hl.prompt t
    refine ⟨n, fun m hm v hv => h m hm v ?_⟩
    have hv : fiberAct (e.act m) = _ := hv
    unfold fiberAct at hv
    split at hv
    · rename_i h5; cases hv; exact h5
    · cases hv

/-- C128: a fiber that is suspended is resumed. -/
theorem C128_fiber (hD : Known D) (e : Exec (DbAsk.step cmd)) (hl : DbAsk.FiberLive e) (n k : Nat) (h : Fiber.life k (e.st n).fib.trace = .suspended) :
    ∃ m, n ≤ m ∧ Fiber.life k (e.st m).fib.trace = .running :=
  C127_yield (dlFibers e) (dl_live hD hl) n k h

/-! ### A case -/

/-- A fiber waits for a query, which is executed; the fiber is resumed, and finishes.  Then there are no fibers. -/
def dbLivePrefix : List (DbAsk.Act redis) :=
  [.reload dbaskConf] ++ dbaskWait ++ dbaskQuery (D := redis) (dbaskServer (b! "secret") (.string (b! "v"))) 7 true 1 ++ dbaskResume ++ [.fiber .finish, .fiber (.tick 2000), .fiber .enter, .fiber (.pick 0)]

def dbLiveAct (n : Nat) : DbAsk.Act redis :=
  match dbLivePrefix[n]? with
  | some a => a
  | none => .fiber (if (n - 28) % 3 = 0 then .tick 1 else if (n - 28) % 3 = 1 then .enter else .endScan)

def dbLiveSt : Nat → Sys redis
  | 0 => start redis 1000 5000
  | n + 1 => (DbAsk.step dbaskCmd (dbLiveSt n) (dbLiveAct n)).getD (dbLiveSt n)

theorem dbLive_act (n : Nat) : dbLiveAct (n + 28) = .fiber (if n % 3 = 0 then .tick 1 else if n % 3 = 1 then .enter else .endScan) := by
  unfold dbLiveAct
  rw [List.getElem?_eq_none (by show 28 ≤ _; omega)]
  simp

theorem dbLive_prefix : ∀ n < 28, (DbAsk.step dbaskCmd (dbLiveSt n) (dbLiveAct n)).isSome = true := by decide +kernel

theorem dbLive_idle (t : Nat) : (dbLiveSt 28).fib.thr t = .idle := by
  have h : (dbLiveSt 28).fib.thr = upd (upd (upd (upd (fun _ => .idle) 1 (.initing 7)) 1 (.notifying 7 0 [0])) 1 (.notifying 7 0 [])) 1 .idle := rfl
  rw [h]
  by_cases ht : t = 1
  · rw [ht, upd_same]
  · rw [upd_other _ _ ht, upd_other _ _ ht, upd_other _ _ ht, upd_other _ _ ht]

theorem dbLive_tail (n : Nat) : (DbAsk.step dbaskCmd (dbLiveSt (n + 28)) (dbLiveAct (n + 28))).isSome = true ∧
    (dbLiveSt (n + 28)).fib.pq = [] ∧ (∀ t, (dbLiveSt (n + 28)).fib.thr t = .idle) ∧ n ≤ 3 * (dbLiveSt (n + 28)).fib.clock ∧
    (n % 3 ≠ 2 → (dbLiveSt (n + 28)).fib.pc = .idle) ∧ (n % 3 = 2 → ∃ now, (dbLiveSt (n + 28)).fib.pc = .scanning 0 now) := by
  suffices h : (dbLiveSt (n + 28)).fib.pq = [] ∧ (∀ t, (dbLiveSt (n + 28)).fib.thr t = .idle) ∧ n ≤ 3 * (dbLiveSt (n + 28)).fib.clock ∧
      (n % 3 ≠ 2 → (dbLiveSt (n + 28)).fib.pc = .idle) ∧ (n % 3 = 2 → ∃ now, (dbLiveSt (n + 28)).fib.pc = .scanning 0 now) by
    refine ⟨?_, h⟩
    obtain ⟨h1, -, -, h4, h5⟩ := h
    rw [dbLive_act]
    split
    · rfl
    · split
      · have hd : Fiber.due (dbLiveSt (n + 28)).fib (dbLiveSt (n + 28)).fib.clock = false := by simp [Fiber.due, h1]
        simp [DbAsk.step, onFiber, Fiber.step, h4 (by omega), hd]
      · obtain ⟨now, hp⟩ := h5 (by omega)
        have hz : ¬ Fiber.sleepTime (dbLiveSt (n + 28)).fib now = 0 := by simp [Fiber.sleepTime, Fiber.least, h1]
        simp [DbAsk.step, onFiber, Fiber.step, hp, h1, hz]
  induction n with
  | zero => exact ⟨by decide +kernel, dbLive_idle, Nat.zero_le _, fun _ => by decide +kernel, fun h => nomatch h⟩
  | succ n ih =>
    obtain ⟨h1, h2, h3, h4, h5⟩ := ih
    have hs : dbLiveSt (n + 1 + 28) = (DbAsk.step dbaskCmd (dbLiveSt (n + 28)) (dbLiveAct (n + 28))).getD (dbLiveSt (n + 28)) := rfl
    rw [hs, dbLive_act]
    by_cases h0 : n % 3 = 0
    · rw [if_pos h0]
      refine ⟨h1, h2, ?_, fun _ => h4 (by omega), fun h => absurd h (by omega)⟩
      show n + 1 ≤ 3 * (_ + 1)
      omega
    · by_cases h6 : n % 3 = 1
      · have hd : Fiber.due (dbLiveSt (n + 28)).fib (dbLiveSt (n + 28)).fib.clock = false := by simp [Fiber.due, h1]
        rw [if_neg h0, if_pos h6]
        simp only [DbAsk.step, onFiber, Fiber.step, h4 (by omega), if_true, hd]
        refine ⟨h1, h2, ?_, fun h => absurd h (by omega), fun _ => ⟨_, rfl⟩⟩
        show n + 1 ≤ 3 * (dbLiveSt (n + 28)).fib.clock
        omega
      · obtain ⟨now, hp⟩ := h5 (by omega)
        have hz : ¬ Fiber.sleepTime (dbLiveSt (n + 28)).fib now = 0 := by simp [Fiber.sleepTime, Fiber.least, h1]
        rw [if_neg h0, if_neg h6]
        simp only [DbAsk.step, onFiber, Fiber.step, hp, h1, List.length_nil, if_true, hz, if_false]
        refine ⟨rfl, h2, ?_, fun _ => rfl, fun h => absurd h (by omega)⟩
        show n + 1 ≤ 3 * (dbLiveSt (n + 28)).fib.clock
        omega

def dbLiveExec : Exec (DbAsk.step (D := redis) dbaskCmd) where
  st := dbLiveSt
  act n := some (dbLiveAct n)
  ok n := by
    have h : (DbAsk.step dbaskCmd (dbLiveSt n) (dbLiveAct n)).isSome = true := by
      by_cases hn : n < 28
      · exact dbLive_prefix n hn
      · obtain ⟨m, rfl⟩ : ∃ m, n = m + 28 := ⟨n - 28, by omega⟩
        exact (dbLive_tail m).1
    obtain ⟨s, hs⟩ := Option.isSome_iff_exists.1 h
    show _ = some ((DbAsk.step dbaskCmd (dbLiveSt n) (dbLiveAct n)).getD (dbLiveSt n))
    rw [hs]; rfl

theorem dbLive_live : DbAsk.FiberLive dbLiveExec where
  start := .init 1000 5000
  warn := by decide
  fail := by decide
  works t n hen := by
    exfalso
    obtain ⟨m, hm, a, ha, hs⟩ := hen (n + 28) (by omega)
    obtain ⟨j, rfl⟩ : ∃ j, m = j + 28 := ⟨m - 28, by omega⟩
    have ht : (dbLiveExec.st (j + 28)).fib.thr t = .idle := (dbLive_tail j).2.2.1 t
    rcases ha with ⟨e, rfl⟩ | ⟨v, rfl⟩ | rfl | rfl | rfl | ⟨net, rfl⟩ | ⟨net, rfl⟩ | ⟨ok, rfl⟩ | rfl | rfl <;> simp [DbAsk.step, onFiber, Fiber.step, initing, finalizing, ht] at hs
  clock t := ⟨3 * t + 28, by
    have := (dbLive_tail (3 * t)).2.2.2.1
    show t ≤ (dbLiveSt (3 * t + 28)).fib.clock
    omega⟩
  sched n _ := ⟨(3 * n + 1) + 28, .enter, by omega, by
    show some (dbLiveAct ((3 * n + 1) + 28)) = _
    rw [dbLive_act, if_neg (by omega), if_pos (by omega)], .inl rfl⟩
  prompt t := ⟨28, fun m hm v h => by
    obtain ⟨j, rfl⟩ : ∃ j, m = j + 28 := ⟨m - 28, by omega⟩
    have h : some (dbLiveAct (j + 28)) = _ := h
    rw [dbLive_act] at h
    repeat' split at h
    all_goals cases h⟩
  body n k h := by
    have h := h (3 * n + 28) (by omega)
    have hp : (dbLiveExec.st (3 * n + 28)).fib.pc = .idle := (dbLive_tail (3 * n)).2.2.2.2.1 (by omega)
    rw [hp] at h
    rcases h with h | ⟨_, h⟩ <;> exact nomatch h

/-- Non-vacuity: in this execution, the hypotheses hold; after a fiber has registered, a query begins, which has not completed; and the fiber is suspended. -/
example : DbAsk.FiberLive dbLiveExec ∧ fibers (dbLiveExec.st 8).log = [.launched 0, .picked 0, .began 0, .waits 7 0, .suspended 0 (some 7) 0, .initBegan 7] ∧
    Fiber.life 0 (dbLiveExec.st 8).fib.trace = .suspended := ⟨dbLive_live, by decide +kernel, by decide +kernel⟩
example : Known redis := .redis
example : Pool.Ev.pooled (future 7) 0 ∈ (dbLiveExec.st 19).pool.trace ∧ Fiber.Ev.finalized 7 ∈ (dbLiveExec.st 19).fib.trace := by decide +kernel

end Verif.Props
