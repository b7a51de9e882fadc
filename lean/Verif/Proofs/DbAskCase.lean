import Verif.Spec.DbAsk
import Verif.Proofs.DbAskPool
import Verif.Proofs.FiberHist
/-!
# The possible outcomes of a step
-/
namespace Verif.DbAsk
open Verif.Fiber (upd)
variable {D : Driver}

/-- Steps of the pool that do not concern connections of futures. -/
inductive Quiet : Pool.Act → Prop
  | tick (n) : Quiet (.tick n)
  | read (o) : Quiet (.read o)
  | giveBack (h id) : Quiet (.giveBack (user h) id)
  | destroy (h id) : Quiet (.destroy (user h) id)

inductive Case (cmd : Nat → D.Cmd) (s : Sys D) : Sys D → Prop
  | fiber (a fib) (h : Fiber.step s.fib a = some fib) (hc : ∀ t f, a = .call t f → (s.fib.fut f).init = true)
      (hx : ∀ t e, a = .exit t e → ∃ f id r, s.fib.thr t = .initing f ∧ s.phase f = .ended id r ∧ e = if r.isSome then .ok else .threw) :
      Case cmd s { s with fib := fib, log := s.log ++ (news s.fib fib).map .fiber }
  | begin_ (t f fib) (h : Fiber.step s.fib (.call t f) = some fib) (hi : (s.fib.fut f).init = false) :
      Case cmd s { s with
        fib := fib, log := s.log ++ (news s.fib fib).map .fiber
        phase := upd s.phase f (match s.phase f with | .lent id => .holding id | _ => .started) }
  | quiet (a p) (h : Pool.step s.pool a = some p) (ha : Quiet a) : Case cmd s { s with pool := p }
  | reload (c p) (h : Pool.step s.pool (.reload c) = some p) : Case cmd s { s with pool := p, confs := c :: s.confs }
  | lend (h f id p) (hs : Pool.step s.pool (.move (user h) (future f) id) = some p) (hp : s.phase f = .new) :
      Case cmd s { s with pool := p, phase := upd s.phase f (.lent id) }
  | alloc (o id uri pw new p) (hg : Pool.Given s.pool p o id uri pw new) (hr : Pool.Reachable s.pool → Pool.Reachable p) (ht : ∃ l, p.trace = l ++ s.pool.trace) (phase')
      (hp : (phase' = s.phase ∧ ∃ h, o = user h) ∨
        ∃ t f c, o = future f ∧ s.pool.snap o = some c ∧ c.uri = uri ∧ initing s t = some f ∧ s.phase f = .reading ∧ phase' = upd s.phase f (.holding id)) :
      Case cmd s { s with pool := p, real := if new then upd s.real id (D.fresh uri pw) else s.real, phase := phase' }
  | exec (o id net c p) (ho : (o, id) ∈ s.pool.owned) (h : Pool.step s.pool ((D.use net (s.real id) c).act o id) = some p) (phase')
      (hp : (phase' = s.phase ∧ ∃ h, o = user h) ∨
        ∃ t f, o = future f ∧ c = cmd f ∧ initing s t = some f ∧ s.phase f = .holding id ∧
          phase' = upd s.phase f (if (D.execute net (s.real id) c).2 then .executed id else .ended id none)) :
      Case cmd s { s with
        pool := p, real := upd s.real id (D.execute net (s.real id) c).1
        log := s.log ++ ((D.trace (D.execute net (s.real id) c).1).drop (D.trace (s.real id)).length).map (.server o id)
        phase := phase' }
  | next (h id net) (ho : (user h, id) ∈ s.pool.owned) : Case cmd s { s with real := upd s.real id (D.next net (s.real id)) }
  | fetch (t f id net) (hi : initing s t = some f) (hp : s.phase f = .executed id) :
      Case cmd s { s with real := upd s.real id (D.fetch net (s.real id)).1, phase := upd s.phase f (.ended id (D.fetch net (s.real id)).2) }
  | reset (o id ok p) (h : Pool.step s.pool (.reset o id ok) = some p) (phase')
      (hp : (phase' = s.phase ∧ ∃ h, o = user h) ∨
        ∃ t f r, o = future f ∧ finalizing s t = some f ∧ s.phase f = .ended id r ∧
          phase' = upd s.phase f (if (D.reset ok (s.real id)).2 then .cleared id r else .over r)) :
      Case cmd s { s with pool := p, real := upd s.real id (D.reset ok (s.real id)).1, phase := phase' }
  | readConf (t f p) (h : Pool.step s.pool (.read (future f)) = some p) (hi : initing s t = some f) (hp : s.phase f = .started) :
      Case cmd s { s with pool := p, phase := upd s.phase f .reading }
  | rereadConf (t f id r p) (h : Pool.step s.pool (.read (future f)) = some p) (hi : finalizing s t = some f) (hp : s.phase f = .cleared id r) :
      Case cmd s { s with pool := p, phase := upd s.phase f (.returning id r) }
  | giveBack (t f id r p) (h : Pool.step s.pool (.giveBack (future f) id) = some p) (hi : finalizing s t = some f) (hp : s.phase f = .returning id r) :
      Case cmd s { s with pool := p, phase := upd s.phase f (.over r) }

theorem onAllocate_some {s s' : Sys D} {o id : Nat} {a : Pool.Act} (ha : (∃ u w, a = .allocate o u w) ∨ a = .allocateDefault o) (h : onAllocate s a = some (s', id)) :
    ∃ uri pw new p, Pool.Given s.pool p o id uri pw new ∧ Pool.step s.pool a = some p ∧ s' = { s with pool := p, real := if new then upd s.real id (D.fresh uri pw) else s.real } ∧
      (a = .allocateDefault o → ∃ c, s.pool.snap o = some c ∧ c.uri = uri) := by
  unfold onAllocate at h
  cases hs : Pool.step s.pool a with
  | none => rw [hs] at h; cases h
  | some p =>
    rw [hs] at h
    dsimp only at h
    have key : ∃ c uri pw, s.pool.snap o = some c ∧ p = Pool.allocate s.pool o c.idle uri pw ∧ (a = .allocateDefault o → c.uri = uri) := by
      rcases ha with ⟨u, w, rfl⟩ | rfl
      · obtain ⟨c, h1, h2⟩ := Option.map_eq_some_iff.1 hs; exact ⟨c, u, w, h1, h2.symm, by simp⟩
      · obtain ⟨c, h1, h2⟩ := Option.map_eq_some_iff.1 hs; exact ⟨c, _, _, h1, h2.symm, fun _ => rfl⟩
    obtain ⟨c, uri, pw, hc, rfl, hd⟩ := key
    obtain ⟨i, new, ht, hg⟩ := Pool.allocate_given s.pool o c.idle uri pw
    rw [ht] at h
    cases new with
    | true =>
      simp only [Option.some.injEq, Prod.mk.injEq] at h
      obtain ⟨h1, rfl⟩ := h
      exact ⟨uri, pw, true, _, hg, rfl, h1.symm, fun x => ⟨c, hc, hd x⟩⟩
    | false =>
      simp only [Option.some.injEq, Prod.mk.injEq] at h
      obtain ⟨h1, rfl⟩ := h
      exact ⟨uri, pw, false, _, hg, rfl, h1.symm, fun x => ⟨c, hc, hd x⟩⟩

theorem onPool_some {s s' : Sys D} {a : Pool.Act} (h : onPool s a = some s') : ∃ p, Pool.step s.pool a = some p ∧ { s with pool := p } = s' :=
  Option.map_eq_some_iff.1 h

theorem onUser_case {cmd : Nat → D.Cmd} {s s' : Sys D} {h : Nat} {a : UserAct D} (hs : onUser s h a = some s') : Case cmd s s' := by
  cases a with
  | readConf => obtain ⟨p, hp, rfl⟩ := onPool_some hs; exact .quiet _ _ hp (.read _)
  | allocate uri pw =>
    obtain ⟨⟨s1, id⟩, hp, rfl⟩ := Option.map_eq_some_iff.1 hs
    obtain ⟨u, w, new, p, hg, hst, rfl, -⟩ := onAllocate_some (.inl ⟨_, _, rfl⟩) hp
    exact .alloc _ _ _ _ _ _ hg (fun hr => .step hr hst) (Pool.step_trace hst) _ (.inl ⟨rfl, h, rfl⟩)
  | allocateDefault =>
    obtain ⟨⟨s1, id⟩, hp, rfl⟩ := Option.map_eq_some_iff.1 hs
    obtain ⟨u, w, new, p, hg, hst, rfl, -⟩ := onAllocate_some (.inr rfl) hp
    exact .alloc _ _ _ _ _ _ hg (fun hr => .step hr hst) (Pool.step_trace hst) _ (.inl ⟨rfl, h, rfl⟩)
  | execute id net c =>
    simp only [onUser, onExecute] at hs
    split at hs
    · obtain ⟨p, hp, rfl⟩ := Option.map_eq_some_iff.1 hs
      exact .exec _ _ _ _ _ (by assumption) hp _ (.inl ⟨rfl, h, rfl⟩)
    · cases hs
  | next id net =>
    simp only [onUser] at hs
    split at hs
    · cases hs; exact .next _ _ _ (by assumption)
    · cases hs
  | reset id ok =>
    obtain ⟨p, hp, rfl⟩ := Option.map_eq_some_iff.1 hs
    exact .reset _ _ _ _ hp _ (.inl ⟨rfl, h, rfl⟩)
  | giveBack id => obtain ⟨p, hp, rfl⟩ := onPool_some hs; exact .quiet _ _ hp (.giveBack _ _)
  | destroy id => obtain ⟨p, hp, rfl⟩ := onPool_some hs; exact .quiet _ _ hp (.destroy _ _)
  | lend id f =>
    simp only [onUser] at hs
    split at hs
    · rename_i hf
      obtain ⟨s1, h1, rfl⟩ := Option.map_eq_some_iff.1 hs
      obtain ⟨p, hp, rfl⟩ := Option.map_eq_some_iff.1 h1
      exact .lend _ _ _ _ hp hf
    · cases hs

theorem onFiber_case {cmd : Nat → D.Cmd} {s s' : Sys D} {a : Fiber.Act} (hs : onFiber s a = some s') : Case cmd s s' := by
  unfold onFiber at hs
  cases hf : Fiber.step s.fib a with
  | none => rw [hf] at hs; cases hs
  | some fib =>
    rw [hf] at hs
    dsimp only at hs
    cases a with
    | call t f =>
      dsimp only at hs
      split at hs
      · rename_i hi
        cases hs
        exact .fiber _ _ hf (by rintro _ _ ⟨rfl, rfl⟩; exact hi) (by simp)
      · rename_i hi
        cases hs
        exact .begin_ t f _ hf (by simpa using hi)
    | exit t e =>
      dsimp only at hs
      split at hs
      · rename_i f ht
        split at hs
        · rename_i id r hp
          by_cases he : e = if r.isSome then .ok else .threw
          · rw [if_pos he] at hs
            cases hs
            exact .fiber _ _ hf (by simp) (by rintro _ _ ⟨rfl, rfl⟩; exact ⟨f, id, r, ht, hp, he⟩)
          · rw [if_neg he] at hs; cases hs
        · cases hs
      · cases hs
    | finalize t =>
      dsimp only at hs
      split at hs
      · split at hs
        · cases hs; exact .fiber _ _ hf (by simp) (by simp)
        · cases hs
      · cases hs
    | _ => cases hs; exact .fiber _ _ hf (by simp) (by simp)

theorem step_case {cmd : Nat → D.Cmd} {s s' : Sys D} {a : Act D} (hs : step cmd s a = some s') : Case cmd s s' := by
  cases a with
  | fiber a => exact onFiber_case hs
  | reload c =>
    simp only [step] at hs
    obtain ⟨s1, h1, rfl⟩ := Option.map_eq_some_iff.1 hs
    obtain ⟨p, hp, rfl⟩ := Option.map_eq_some_iff.1 h1
    exact .reload _ _ hp
  | tick n => simp only [step] at hs; obtain ⟨p, hp, rfl⟩ := onPool_some hs; exact .quiet _ _ hp (.tick _)
  | user h a => exact onUser_case hs
  | readConf t =>
    simp only [step] at hs
    split at hs
    · cases hs
    · rename_i f hi
      split at hs
      · rename_i hp
        obtain ⟨s1, h1, rfl⟩ := Option.map_eq_some_iff.1 hs
        obtain ⟨p, hp', rfl⟩ := Option.map_eq_some_iff.1 h1
        exact .readConf t f _ hp' hi hp
      · cases hs
  | allocate t =>
    simp only [step] at hs
    split at hs
    · cases hs
    · rename_i f hi
      split at hs
      · rename_i hp
        obtain ⟨⟨s1, id⟩, h1, rfl⟩ := Option.map_eq_some_iff.1 hs
        obtain ⟨u, w, new, p, hg, hst, rfl, hd⟩ := onAllocate_some (.inr rfl) h1
        obtain ⟨c, hc, hu⟩ := hd rfl
        exact .alloc _ _ _ _ _ _ hg (fun hr => .step hr hst) (Pool.step_trace hst) _ (.inr ⟨t, f, c, rfl, hc, hu, hi, hp, rfl⟩)
      · cases hs
  | execute t net =>
    simp only [step] at hs
    split at hs
    · cases hs
    · rename_i f hi
      split at hs
      · rename_i id hp
        obtain ⟨s1, h1, rfl⟩ := Option.map_eq_some_iff.1 hs
        unfold onExecute at h1
        split at h1
        · rename_i ho
          obtain ⟨p, hp', rfl⟩ := Option.map_eq_some_iff.1 h1
          exact .exec _ _ _ _ _ ho hp' _ (.inr ⟨t, f, rfl, rfl, hi, hp, rfl⟩)
        · cases h1
      · cases hs
  | fetch t net =>
    simp only [step] at hs
    split at hs
    · cases hs
    · rename_i f hi
      split at hs
      · rename_i id hp
        cases hs
        exact .fetch t f id net hi hp
      · cases hs
  | reset t ok =>
    simp only [step] at hs
    split at hs
    · cases hs
    · rename_i f hi
      split at hs
      · rename_i id r hp
        obtain ⟨s1, h1, rfl⟩ := Option.map_eq_some_iff.1 hs
        obtain ⟨p, hp', rfl⟩ := Option.map_eq_some_iff.1 h1
        exact .reset _ _ _ _ hp' _ (.inr ⟨t, f, r, rfl, hi, hp, rfl⟩)
      · cases hs
  | rereadConf t =>
    simp only [step] at hs
    split at hs
    · cases hs
    · rename_i f hi
      split at hs
      · rename_i id r hp
        obtain ⟨s1, h1, rfl⟩ := Option.map_eq_some_iff.1 hs
        obtain ⟨p, hp', rfl⟩ := Option.map_eq_some_iff.1 h1
        exact .rereadConf t f id r _ hp' hi hp
      · cases hs
  | giveBack t =>
    simp only [step] at hs
    split at hs
    · cases hs
    · rename_i f hi
      split at hs
      · rename_i id r hp
        obtain ⟨s1, h1, rfl⟩ := Option.map_eq_some_iff.1 hs
        obtain ⟨p, hp', rfl⟩ := Option.map_eq_some_iff.1 h1
        exact .giveBack t f id r _ hp' hi hp
      · cases hs

end Verif.DbAsk
