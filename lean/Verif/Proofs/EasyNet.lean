import Verif.Proofs.Easy
import Verif.Spec.EasyNet
/-! # Proofs about sessions and what they report -/
namespace Verif.EasyNet
open Verif.Easy

variable {M : Type} [DecidableEq M]

theorem snocInd {α : Type} {P : List α → Prop} (l : List α) (nil : P []) (snoc : ∀ h i, P h → P (h ++ [i])) : P l := by
  suffices h : ∀ r : List α, P r.reverse by rw [← l.reverse_reverse]; exact h _
  intro r
  induction r with
  | nil => exact nil
  | cons x t ih => rw [List.reverse_cons]; exact snoc _ _ ih

def Has (s : Sys M) (i : Nat) : Prop := ∃ q, s.table (s.addr i) = some q ∧ q.sid = i

/-- What an action does that pushes nothing. -/
structure Quiet (s s' : Sys M) : Prop where
  push : ∀ i, pushed s'.trace i = pushed s.trace i
  arr : ∀ i, arrivals s'.trace i = arrivals s.trace i
  count : s.count ≤ s'.count
  has : ∀ i, i < s.count → Has s' i → Has s i

theorem quiet_step {s s' : Sys M} {a : Act M} (ha : ∀ i e f, a ≠ .push i e f) (hs : Easy.step s a = some s') : Quiet s s' := by
  cases a with
  | push i e f => exact absurd rfl (ha i e f)
  | accept a =>
    simp only [Easy.step] at hs
    split at hs
    · cases hs
    rename_i h1
    split at hs
    · cases hs
    simp only [Option.some.injEq] at hs
    subst hs
    refine ⟨fun i => rfl, fun i => rfl, Nat.le_succ _, fun i hi => ?_⟩
    rintro ⟨q, h2, h3⟩
    simp only [setTable, if_neg (Nat.ne_of_lt hi)] at h2
    split at h2
    · cases h2; simp only at h3; omega
    · exact ⟨q, h2, h3⟩
  | free i =>
    simp only [Easy.step] at hs
    split at hs
    · simp only [Option.some.injEq] at hs; subst hs
      exact ⟨fun i => rfl, fun i => rfl, Nat.le_refl _, fun i _ h => h⟩
    · cases hs
  | stop =>
    simp only [Easy.step, Option.some.injEq] at hs
    subst hs
    refine ⟨fun i => rfl, fun i => rfl, Nat.le_refl _, fun i _ h => ?_⟩
    obtain ⟨q, h2, h3⟩ := h
    simp only at h2
    split at h2
    · exact ⟨q, h2, h3⟩
    · cases h2
  | resume f =>
    simp only [Easy.step] at hs
    split at hs
    · split at hs
      · split at hs
        · cases hs
        · simp only [Option.some.injEq] at hs; subst hs
          exact ⟨fun i => rfl, fun i => rfl, Nat.le_refl _, fun i _ h => h⟩
      · cases hs
    · cases hs
  | yield f =>
    simp only [Easy.step] at hs
    split at hs
    · split at hs
      · split at hs
        · simp only [Option.some.injEq] at hs; subst hs
          exact ⟨fun i => rfl, fun i => rfl, Nat.le_refl _, fun i _ h => h⟩
        · cases hs
      · cases hs
    · cases hs
  | loop f =>
    simp only [Easy.step] at hs
    split at hs
    · split at hs
      · split at hs
        · rename_i x hx _
          simp only [Option.some.injEq] at hs; subst hs
          unfold loop
          simp only
          split
          · exact ⟨fun i => rfl, fun i => rfl, Nat.le_refl _, fun i _ h => h⟩
          · split
            · exact ⟨fun i => rfl, fun i => rfl, Nat.le_refl _, fun i _ h => h⟩
            · rename_i q hq
              split
              · refine ⟨fun i => rfl, fun i => rfl, Nat.le_refl _, fun i _ h => ?_⟩
                obtain ⟨q', h2, h3⟩ := h
                simp only [setTable] at h2
                split at h2
                · rename_i e; cases h2; exact ⟨q, by rw [e]; exact hq, h3⟩
                · exact ⟨q', h2, h3⟩
              · rename_i ev r he
                refine ⟨fun i => ?_, fun i => ?_, Nat.le_refl _, fun i _ h => ?_⟩
                · simp only; split <;> rfl
                · simp only; split <;> rfl
                · obtain ⟨q', h2, h3⟩ := h
                  simp only [setTable] at h2
                  split at h2
                  · rename_i e
                    split at h2
                    · cases h2
                    · cases h2; exact ⟨q, by rw [e]; exact hq, h3⟩
                  · exact ⟨q', h2, h3⟩
        · cases hs
      · cases hs
    · cases hs
  | back f n =>
    simp only [Easy.step] at hs
    split at hs
    · split at hs
      · split at hs
        · rename_i sid ev hx
          simp only [Option.some.injEq] at hs; subst hs
          unfold back
          simp only
          split
          · rename_i q hq
            split
            · refine ⟨fun i => rfl, fun i => rfl, Nat.le_refl _, fun i _ h => ?_⟩
              obtain ⟨q', h2, h3⟩ := h
              simp only at h2
              split at h2
              · cases h2
              · simp only [setTable] at h2
                split at h2
                · rename_i e; cases h2; exact ⟨q, by rw [e]; exact hq, h3⟩
                · exact ⟨q', h2, h3⟩
            · refine ⟨fun i => rfl, fun i => rfl, Nat.le_refl _, fun i _ h => ?_⟩
              obtain ⟨q', h2, h3⟩ := h
              simp only at h2
              split at h2
              · cases h2
              · exact ⟨q', h2, h3⟩
          · refine ⟨fun i => rfl, fun i => rfl, Nat.le_refl _, fun i _ h => ?_⟩
            obtain ⟨q', h2, h3⟩ := h
            simp only at h2
            split at h2
            · cases h2
            · exact ⟨q', h2, h3⟩
        · cases hs
      · cases hs
    · cases hs

/-- What a push does. -/
theorem pushed_push (s : Sys M) (k : Nat) (e : Event M) (f : Fail) (i : Nat) : pushed (push s k e f).trace i = if k = i then pushed s.trace i ++ [e] else pushed s.trace i := by
  unfold push
  split
  · rfl
  · split
    · rfl
    · cases f <;> rfl

theorem push_count (s : Sys M) (k : Nat) (e : Event M) (f : Fail) : (push s k e f).count = s.count ∧ (push s k e f).addr = s.addr := by
  unfold push
  split
  · exact ⟨rfl, rfl⟩
  · split
    · exact ⟨rfl, rfl⟩
    · cases f <;> exact ⟨rfl, rfl⟩

/-- What has been noted is what has been pushed, up to some point; and all of it, while the session is in the table. -/
structure Noted (s : Sys M) : Prop where
  pre : ∀ i, arrivals s.trace i <+: pushed s.trace i
  all : ∀ i, i < s.count → Has s i → arrivals s.trace i = pushed s.trace i
  new : ∀ i, s.count ≤ i → pushed s.trace i = []

theorem Noted.quiet {s s' : Sys M} (h : Noted s) (q : Quiet s s') : Noted s' := by
  refine ⟨fun i => by rw [q.push, q.arr]; exact h.pre i, fun i hi hh => ?_, fun i hi => by rw [q.push]; exact h.new i (Nat.le_trans q.count hi)⟩
  rw [q.push, q.arr]
  by_cases hl : i < s.count
  · exact h.all i hl (q.has i hl hh)
  · have h1 := h.new i (Nat.le_of_not_lt hl)
    have h2 := h.pre i
    rw [h1] at h2 ⊢
    exact List.prefix_nil.mp h2

theorem Noted.push {s : Sys M} (h : Noted s) (hi : Inv s) {k : Nat} (hm : s.mem (s.addr k) = some k) (hk : k < s.count) (e : Event M) (f : Fail) : Noted (push s k e f) := by
  have hc := push_count s k e f
  refine ⟨fun i => ?_, fun i hlt hh => ?_, fun i hlt => ?_⟩
  · rw [pushed_push]
    unfold Easy.push
    split
    · simp only [arrivals]; split
      · exact (h.pre i).trans ⟨_, rfl⟩
      · exact h.pre i
    · split
      · simp only [arrivals]; split
        · exact (h.pre i).trans ⟨_, rfl⟩
        · exact h.pre i
      · rename_i q hq
        cases f with
        | launch => simp only [arrivals]; split <;> first | exact (h.pre i).trans ⟨_, rfl⟩ | exact h.pre i
        | push => simp only [arrivals]; split <;> first | exact (h.pre i).trans ⟨_, rfl⟩ | exact h.pre i
        | no =>
          simp only [arrivals]
          by_cases hki : k = i
          · subst hki
            simp only [if_true]
            have hs : q.sid = k := by have := hi.tab _ q hq; rw [hm] at this; exact (Option.some.inj this).symm
            rw [h.all k hk ⟨q, hq, hs⟩]
            exact List.prefix_refl _
          · simp only [if_neg hki]; exact h.pre i
  · rw [hc.1] at hlt
    obtain ⟨q', h1, h2⟩ := hh
    rw [hc.2] at h1
    rw [pushed_push]
    revert h1
    unfold Easy.push
    split
    · intro h1
      rename_i ha
      have := hi.alv (by cases hx : alive s <;> simp_all) (s.addr i)
      simp only at h1
      rw [this] at h1; cases h1
    · split
      · rename_i hn
        intro h1
        simp only at h1
        have hki : k ≠ i := by rintro rfl; rw [hn] at h1; cases h1
        simp only [arrivals, if_neg hki]
        exact h.all i hlt ⟨q', h1, h2⟩
      · rename_i q hq
        have hs : q.sid = k := by have := hi.tab _ q hq; rw [hm] at this; exact (Option.some.inj this).symm
        cases f with
        | launch =>
          intro h1
          simp only [setTable] at h1
          split at h1
          · cases h1
          · rename_i ne
            have hki : k ≠ i := by rintro rfl; exact ne rfl
            simp only [arrivals, if_neg hki]
            exact h.all i hlt ⟨q', h1, h2⟩
        | push =>
          intro h1
          simp only [setTable] at h1
          split at h1
          · cases h1
          · rename_i ne
            have hki : k ≠ i := by rintro rfl; exact ne rfl
            simp only [arrivals, if_neg hki]
            exact h.all i hlt ⟨q', h1, h2⟩
        | no =>
          intro h1
          simp only [arrivals]
          by_cases hki : k = i
          · subst hki
            simp only [if_true]
            rw [h.all k hk ⟨q, hq, hs⟩]
          · simp only [if_neg hki]
            simp only [setTable] at h1
            split at h1
            · cases h1; simp only at h2; exact absurd (hs.symm.trans h2) hki
            · exact h.all i hlt ⟨q', h1, h2⟩
  · rw [hc.1] at hlt
    rw [pushed_push, if_neg (by omega)]
    exact h.new i hlt

theorem outputs_snoc {C : Class M} {x y z : C.σ} {h : List In} {i : In} {a b : List (Event M)} (h1 : outputs C x h = some (y, a)) (h2 : C.on y i = some (z, b)) :
    outputs C x (h ++ [i]) = some (z, a ++ b) := by
  induction h generalizing x a with
  | nil => simp only [outputs, Option.some.injEq, Prod.mk.injEq] at h1; obtain ⟨rfl, rfl⟩ := h1; simp [outputs, h2]
  | cons j r ih =>
    simp only [outputs] at h1
    split at h1
    · cases h1
    · rename_i y' evs hy
      split at h1
      · cases h1
      · rename_i z' more hz
        cases h1
        simp only [List.cons_append, outputs, hy, ih hz, List.append_assoc]

theorem outputs_append {C : Class M} {x y z : C.σ} {h g : List In} {a b : List (Event M)} (h1 : outputs C x h = some (y, a)) (h2 : outputs C y g = some (z, b)) :
    outputs C x (h ++ g) = some (z, a ++ b) := by
  induction g generalizing h y a b with
  | nil => simp only [outputs, Option.some.injEq, Prod.mk.injEq] at h2; obtain ⟨rfl, rfl⟩ := h2; simpa using h1
  | cons j r ih =>
    simp only [outputs] at h2
    split at h2
    · cases h2
    · rename_i y' evs hy
      split at h2
      · cases h2
      · rename_i z' more hz
        cases h2
        have := ih (outputs_snoc h1 hy) hz
        simpa [List.append_assoc] using this

theorem outputs_unsnoc {C : Class M} {x z : C.σ} {h : List In} {i : In} {e : List (Event M)} (h1 : outputs C x (h ++ [i]) = some (z, e)) :
    ∃ y a b, outputs C x h = some (y, a) ∧ C.on y i = some (z, b) ∧ e = a ++ b := by
  induction h generalizing x e with
  | nil =>
    simp only [List.nil_append, outputs] at h1
    split at h1
    · cases h1
    · rename_i y evs hy
      cases h1
      exact ⟨x, [], evs, rfl, hy, by simp⟩
  | cons j r ih =>
    simp only [List.cons_append, outputs] at h1
    split at h1
    · cases h1
    · rename_i y evs hy
      split at h1
      · cases h1
      · rename_i z' more hz
        cases h1
        obtain ⟨y', a, b, g1, g2, rfl⟩ := ih hz
        exact ⟨y', evs ++ a, b, by simp only [outputs, hy, g1], g2, by simp⟩

/-- The order of what happens to a socket. -/
def Ordered (h : List In) : Prop := ∀ a i b, h = a ++ i :: b → admits a i = true

structure NInv {C : Class M} (n : Net C) : Prop where
  easy : Easy.Reachable n.easy
  noted : Noted n.easy
  out : ∀ i, outputs C C.init (n.input i) = some (n.node i, pushed n.easy.trace i ++ if i = n.who then n.todo else [])
  who : n.todo ≠ [] → n.who < n.easy.count
  ordered : ∀ i, Ordered (n.input i)

theorem ordered_snoc {h : List In} {i : In} (hh : Ordered h) (hi : admits h i = true) : Ordered (h ++ [i]) := by
  intro a j b e
  rcases List.eq_nil_or_concat b with rfl | ⟨b', z, rfl⟩
  · obtain ⟨rfl, e2⟩ := List.append_inj' e rfl
    cases e2; exact hi
  · rw [List.concat_eq_append, ← List.cons_append, ← List.append_assoc] at e
    obtain ⟨e1, -⟩ := List.append_inj' e rfl
    exact hh a j b' e1

theorem ninv_step {C : Class M} {n n' : Net C} {a : NAct M} (h : NInv n) (hc : n.easy.careful = true) (hs : step n a = some n') : NInv n' ∧ n'.easy.careful = true := by
  cases a with
  | easy a =>
    simp only [step] at hs
    split at hs
    · rename_i hm
      split at hs
      · cases hs
      · rename_i s' he
        cases hs
        have q : Quiet n.easy s' := quiet_step (by rintro i e f rfl; simp [mayRun] at hm) he
        refine ⟨⟨.step h.easy he, h.noted.quiet q, fun i => ?_, fun hw => Nat.lt_of_lt_of_le (h.who hw) q.count, h.ordered⟩, by simp only; rw [step_careful he]; exact hc⟩
        simp only
        rw [q.push]; exact h.out i
    · cases hs
  | socket k i =>
    simp only [step] at hs
    split at hs
    · rename_i hg
      simp only [Bool.and_eq_true, List.isEmpty_iff, decide_eq_true_eq] at hg
      obtain ⟨⟨⟨h1, h2⟩, h3⟩, h4⟩ := hg
      split at hs
      · cases hs
      · rename_i x evs hx
        cases hs
        refine ⟨⟨h.easy, h.noted, fun j => ?_, fun _ => h3, fun j => ?_⟩, hc⟩
        · simp only
          have ho := h.out j
          rw [h1] at ho
          simp only [ite_self, List.append_nil] at ho
          by_cases hj : j = k
          · subst hj; simp only [if_true]; exact outputs_snoc ho hx
          · simp only [if_neg hj, List.append_nil]; exact ho
        · simp only
          split
          · rename_i hj; exact ordered_snoc (h.ordered k) h4
          · exact h.ordered j
    · cases hs
  | push f =>
    simp only [step] at hs
    split at hs
    · cases hs
    · rename_i e r ht
      split at hs
      · cases hs
      · rename_i s' he
        cases hs
        have hw := h.who (by rw [ht]; simp)
        have hR : Easy.Reachable s' := .step h.easy he
        have hcc := (step_careful he).trans hc
        simp only [Easy.step] at he
        split at he
        · rename_i hg
          cases he
          refine ⟨⟨hR, h.noted.push (inv h.easy hc) hg.1 hw e f, fun j => ?_, fun _ => by simp only; rw [(push_count _ _ _ _).1]; exact hw, h.ordered⟩, hcc⟩
          simp only
          rw [pushed_push]
          have ho := h.out j
          rw [ht] at ho
          by_cases hj : j = n.who
          · simp only [if_pos hj, if_pos hj.symm] at ho ⊢
            rw [ho]; simp [List.append_assoc]
          · simp only [if_neg hj, if_neg (fun e => hj (Eq.symm e))] at ho ⊢
            exact ho
        · cases he

theorem ninv {C : Class M} {n : Net C} (h : Reachable n) (hc : n.easy.careful = true) : NInv n := by
  induction h with
  | init c =>
    refine ⟨.init c, ⟨fun i => ⟨[], rfl⟩, fun i hi => absurd hi (Nat.not_lt_zero _), fun i _ => rfl⟩, fun i => ?_, fun h => absurd rfl h, fun i a j b e => ?_⟩
    · simp [outputs, pushed]
    · simp at e
  | @step n n' a hr hs ih =>
    have hc' : n.easy.careful = true := by
      cases a with
      | easy a =>
        simp only [step] at hs
        split at hs
        · split at hs
          · cases hs
          · rename_i he; cases hs; rw [← step_careful he]; exact hc
        · cases hs
      | socket k i =>
        simp only [step] at hs
        split at hs
        · split at hs
          · cases hs
          · cases hs; exact hc
        · cases hs
      | push f =>
        simp only [step] at hs
        split at hs
        · cases hs
        · split at hs
          · cases hs
          · rename_i he; cases hs; rw [← step_careful he]; exact hc
    exact (ninv_step (ih hc') hc' hs).1

theorem upToClose_prefix {a b : List (Event M)} (h : a <+: b) (hc : ∃ e ∈ a, e.ty = .close) : upToClose a = upToClose b := by
  obtain ⟨r, rfl⟩ := h
  induction a with
  | nil => obtain ⟨e, he, _⟩ := hc; cases he
  | cons x t ih =>
    simp only [List.cons_append, upToClose]
    split
    · rfl
    · rename_i hx
      congr 1
      apply ih
      obtain ⟨e, he, h2⟩ := hc
      rcases List.mem_cons.mp he with rfl | he
      · exact absurd h2 hx
      · exact ⟨e, he, h2⟩

end Verif.EasyNet
