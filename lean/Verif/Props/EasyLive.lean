import Verif.Spec.EasyLive
import Verif.Proofs.Live
import Verif.Props.EasyQueue
/-!
# C129: what arrives is passed to the callback
-/
namespace Verif.Props
open Verif.EasyQueue Verif.Live

/-- How far a fiber is from the next call of the callback. -/
def el_rank : FSt → Nat
  | .calling => 3
  | .ready => 2
  | .entered => 1
  | .done => 0

/-- The trace only grows. -/
theorem el_trace {s s' : Sys α} {a : Act α} (h : step s a = some s') : s.trace <:+ s'.trace := by
  have ho : ∀ o, s.trace <:+ (setOwn s o).trace := by
    intro o
    unfold setOwn
    split
    · exact List.suffix_rfl
    · exact List.suffix_cons _ _
  unfold step at h
  repeat' split at h
  all_goals first
    | (cases h; done)
    | (cases h; exact List.suffix_rfl)
    | (cases h; exact List.suffix_cons _ _)
    | (cases h; exact ho _)
    | skip
  · unfold push at h
    repeat' split at h
    all_goals first
      | (cases h; done)
      | (cases h; exact List.suffix_cons _ _)
  · unfold EasyQueue.pop at h
    repeat' split at h
    all_goals first
      | (cases h; done)
      | (cases h; exact List.suffix_rfl)
      | (cases h; exact List.suffix_cons _ _)

theorem el_arrivals {q : Nat} : ∀ (p : List (Ev α)) (t : List (Ev α)), arrivals t q <+: arrivals (p ++ t) q
  | [], _ => List.prefix_rfl
  | x :: p, t => by
    refine (el_arrivals p t).trans ?_
    show arrivals (p ++ t) q <+: arrivals (x :: (p ++ t)) q
    cases x
    all_goals simp only [arrivals]
    all_goals first
      | exact List.prefix_rfl
      | (split
         · exact List.prefix_append _ _
         · exact List.prefix_rfl)

theorem el_calls {q : Nat} : ∀ (p : List (Ev α)) (t : List (Ev α)), calls t q <+: calls (p ++ t) q
  | [], _ => List.prefix_rfl
  | x :: p, t => by
    refine (el_calls p t).trans ?_
    show calls (p ++ t) q <+: calls (x :: (p ++ t)) q
    cases x
    all_goals simp only [calls]
    all_goals first
      | exact List.prefix_rfl
      | (split
         · exact List.prefix_append _ _
         · exact List.prefix_rfl)

theorem el_mono {s s' : Sys α} {a : Act α} (h : step s a = some s') (q : Nat) : arrivals s.trace q <+: arrivals s'.trace q ∧ calls s.trace q <+: calls s'.trace q ∧ (.stopped q ∈ s.trace → .stopped q ∈ s'.trace) := by
  obtain ⟨p, hp⟩ := el_trace h
  rw [← hp]
  exact ⟨el_arrivals p _, el_calls p _, fun h => List.mem_append_right _ h⟩

/-- What a step does to a fiber whose queue has something: it comes nearer to the next call, or calls. -/
theorem el_step {s s' : Sys α} {a : Act α} (hr : Reachable s) (h : step s a = some s') {f : Nat} {x : Fiber} (hf : s.fibs[f]? = some x) (hd : x.st ≠ .done)
    (hk : calls s.trace x.qid ≠ arrivals s.trace x.qid) :
    (∃ x', s'.fibs[f]? = some x' ∧ x'.qid = x.qid ∧ x'.st ≠ .done ∧ el_rank x'.st ≤ el_rank x.st ∧ (Goes f a → el_rank x'.st < el_rank x.st)) ∨ .stopped x.qid ∈ s.trace ∨
    (calls s'.trace x.qid).length = (calls s.trace x.qid).length + 1 := by
  have same : s'.fibs[f]? = some x → ¬ Goes f a → (∃ x', s'.fibs[f]? = some x' ∧ x'.qid = x.qid ∧ x'.st ≠ .done ∧ el_rank x'.st ≤ el_rank x.st ∧ (Goes f a → el_rank x'.st < el_rank x.st)) ∨
    .stopped x.qid ∈ s.trace ∨ (calls s'.trace x.qid).length = (calls s.trace x.qid).length + 1 := fun h1 h2 => .inl ⟨x, h1, rfl, hd, Nat.le_refl _, fun h => absurd h h2⟩
  have ho : ∀ o, (setOwn s o).fibs = s.fibs := by
    intro o
    unfold setOwn
    split
    · rfl
    · rfl
  cases a with
  | create =>
    simp only [step] at h
    split at h
    · cases h; exact same hf (by simp [Goes])
    · cases h
  | assign =>
    simp only [step] at h
    split at h
    · cases h; exact same (by show (setOwn s _).fibs[f]? = _; rw [ho]; exact hf) (by simp [Goes])
    · cases h; exact same hf (by simp [Goes])
    · cases h
  | stop =>
    simp only [step] at h
    split at h
    · cases h; exact same (by show (setOwn s _).fibs[f]? = _; rw [ho]; exact hf) (by simp [Goes])
    · cases h; exact same hf (by simp [Goes])
    · cases h
  | packet q y =>
    simp only [step] at h
    repeat' split at h
    all_goals first
      | (cases h; done)
      | (cases h; exact same hf (by simp [Goes]))
  | push fail =>
    simp only [step] at h
    split at h
    · rename_i q y hn
      unfold push at h
      split at h
      · cases h
      · rename_i qu hqu
        have hfib : (if qu.active then s.fibs else s.fibs ++ [{ qid := q }])[f]? = some x := by
          split
          · exact hf
          · rw [List.getElem?_append_left (List.getElem?_eq_some_iff.1 hf).1]; exact hf
        cases fail with
        | launch =>
          dsimp only at h
          split at h
          · cases h
          · cases h; exact same hf (by simp [Goes])
        | push => cases h; exact same hfib (by simp [Goes])
        | no => cases h; exact same hfib (by simp [Goes])
    · cases h
  | resume g =>
    simp only [step] at h
    repeat' split at h
    all_goals first
      | (cases h; done)
      | (cases h; exact same hf (by simp [Goes]))
  | enter g =>
    simp only [step] at h
    split at h
    · by_cases hg : g = f
      · subst hg
        rw [hf] at h
        dsimp only at h
        split at h
        · rename_i hst
          by_cases ha : (queueAlive s x.qid && socketAlive s x.qid) = true
          · rw [if_pos ha] at h
            cases h
            exact .inl ⟨_, setFib_self hf, rfl, by simp, by rw [hst]; simp [el_rank], fun _ => by rw [hst]; simp [el_rank]⟩
          · right; left
            obtain ⟨qu, hqu⟩ := (inv hr).getQ hf
            rcases (inv hr).own x.qid (List.getElem?_eq_some_iff.1 hqu).1 with hw | hw | hw
            · have h1 : queueAlive s x.qid = true := (queueAlive_iff s _).2 (.inl hw)
              exact absurd (by rw [h1, (inv hr).socket h1]; rfl) ha
            · have h1 : queueAlive s x.qid = true := (queueAlive_iff s _).2 (.inr (.inl hw))
              exact absurd (by rw [h1, (inv hr).socket h1]; rfl) ha
            · exact hw
        · cases h
      · have hng : ¬ Goes f (Act.enter g : Act α) := by
          rintro (h | h | h)
          · cases h; exact hg rfl
          · cases h
          · cases h
        repeat' split at h
        all_goals first
          | (cases h; done)
          | (cases h; exact same ((setFib_other hg).trans hf) hng)
    · cases h
  | pop g =>
    simp only [step] at h
    split at h
    · by_cases hg : g = f
      · subst hg
        rw [hf] at h
        dsimp only at h
        split at h
        · obtain ⟨qu, hqu⟩ := (inv hr).getQ hf
          unfold EasyQueue.pop at h
          rw [hqu] at h
          dsimp only at h
          split at h
          · rename_i hp
            have := (inv hr).seq _ _ hqu
            rw [hp, List.append_nil] at this
            exact absurd this.symm hk
          · cases h
            right; right
            simp only [calls, if_pos, List.length_append, List.length_singleton]
        · cases h
      · have hng : ¬ Goes f (Act.pop g : Act α) := by
          rintro (h | h | h)
          · cases h
          · cases h; exact hg rfl
          · cases h
        unfold EasyQueue.pop at h
        repeat' split at h
        all_goals first
          | (cases h; done)
          | (cases h; exact same ((setFib_other hg).trans hf) hng)
    · cases h
  | yield g =>
    simp only [step] at h
    repeat' split at h
    all_goals first
      | (cases h; done)
      | (cases h; exact same hf (by simp [Goes]))
  | back g =>
    simp only [step] at h
    split at h
    · by_cases hg : g = f
      · subst hg
        rw [hf] at h
        dsimp only at h
        split at h
        · rename_i hst
          cases h
          exact .inl ⟨_, setFib_self hf, rfl, by simp, by rw [hst]; simp [el_rank], fun _ => by rw [hst]; simp [el_rank]⟩
        · cases h
      · have hng : ¬ Goes f (Act.back g : Act α) := by
          rintro (h | h | h)
          · cases h
          · cases h
          · cases h; exact hg rfl
        repeat' split at h
        all_goals first
          | (cases h; done)
          | (cases h; exact same ((setFib_other hg).trans hf) hng)
    · cases h

variable {e : Exec (step (α := α))}

theorem el_reach (h : Fairly e) (n : Nat) : Reachable (e.st n) :=
  e.always (P := Reachable) 0 h.start (fun _ _ _ h1 h2 => .step h1 h2) n (Nat.zero_le _)

theorem el_later (h : Fairly e) (q : Nat) {n m : Nat} (hm : n ≤ m) :
    arrivals (e.st n).trace q <+: arrivals (e.st m).trace q ∧ calls (e.st n).trace q <+: calls (e.st m).trace q ∧ (.stopped q ∈ (e.st n).trace → .stopped q ∈ (e.st m).trace) :=
  e.always (P := fun s => arrivals (e.st n).trace q <+: arrivals s.trace q ∧ calls (e.st n).trace q <+: calls s.trace q ∧ (.stopped q ∈ (e.st n).trace → .stopped q ∈ s.trace)) n
    ⟨List.prefix_rfl, List.prefix_rfl, id⟩ (fun _ _ _ ⟨h1, h2, h3⟩ hs => ⟨h1.trans (el_mono hs q).1, h2.trans (el_mono hs q).2.1, fun h => (el_mono hs q).2.2 (h3 h)⟩) m hm

/-- The callback is called once more. -/
theorem el_once (h : Fairly e) (q : Nat) (n : Nat) (hk : calls (e.st n).trace q ≠ arrivals (e.st n).trace q) :
    ∃ m, n ≤ m ∧ (.stopped q ∈ (e.st m).trace ∨ (calls (e.st n).trace q).length < (calls (e.st m).trace q).length) := by
  by_cases hs : .stopped q ∈ (e.st n).trace
  · exact ⟨n, Nat.le_refl _, .inl hs⟩
  obtain ⟨f, x, hf, hq, hd⟩ := (C71_pending (el_reach h n) hk).resolve_right hs
  let K := (calls (e.st n).trace q).length
  have hKa : K < (arrivals (e.st n).trace q).length := by
    obtain ⟨r, hr⟩ := C71_order (el_reach h n) q
    have : r ≠ [] := by rintro rfl; rw [List.append_nil] at hr; exact hk hr
    have := List.length_pos_iff.2 this
    rw [← hr, List.length_append]; omega
  let P : Nat → Prop := fun j => K < (arrivals (e.st j).trace q).length ∧ (calls (e.st j).trace q).length = K ∧ ∃ x, (e.st j).fibs[f]? = some x ∧ x.qid = q ∧ x.st ≠ .done
  let μ : Nat → Nat := fun j => match (e.st j).fibs[f]? with
    | some x => el_rank x.st
    | none => 0
  have step1 : ∀ j, P j → ((P (j + 1) ∧ μ (j + 1) ≤ μ j) ∧ (e.Taken (Goes f) j → μ (j + 1) < μ j)) ∨ (.stopped q ∈ (e.st (j + 1)).trace ∨ K < (calls (e.st (j + 1)).trace q).length) := by
    rintro j ⟨h1, h2, x, hf, hq, hd⟩
    have hl := el_later h q (n := j) (m := j + 1) (by omega)
    rcases e.next j with ⟨ha, hn⟩ | ⟨a, ha, hst⟩
    · left
      refine ⟨⟨⟨by rw [hn]; exact h1, by rw [hn]; exact h2, x, by rw [hn]; exact hf, hq, hd⟩, by show μ (j + 1) ≤ μ j; simp only [μ, hn]; exact Nat.le_refl _⟩, ?_⟩
      rintro ⟨a, ha', -⟩
      rw [ha] at ha'; cases ha'
    · subst hq
      rcases el_step (el_reach h j) hst hf hd (by intro hc; rw [hc] at h2; omega) with ⟨x', g1, g2, g3, g4, g5⟩ | hs | hc
      · by_cases hcl : (calls (e.st (j + 1)).trace x.qid).length = K
        · left
          refine ⟨⟨⟨Nat.lt_of_lt_of_le h1 hl.1.length_le, hcl, x', g1, g2, g3⟩, by simp only [μ, g1, hf]; exact g4⟩, ?_⟩
          rintro ⟨b, hb, hgo⟩
          rw [ha] at hb; cases hb
          simp only [μ, g1, hf]; exact g5 hgo
        · right; right
          have := hl.2.1.length_le
          omega
      · exact .inr (.inl (hl.2.2 hs))
      · right; right; omega
  obtain ⟨m, hm, hQ⟩ := e.leads_often (P := P) (Q := fun j => .stopped q ∈ (e.st j).trace ∨ K < (calls (e.st j).trace q).length) (T := Goes f) μ
    (fun j hj => (step1 j hj).imp (·.1) id)
    (fun j hj => by
      apply h.goes f
      intro m hm
      -- the fiber is resumed
      obtain ⟨k, hk1, a, hka, rfl⟩ := h.resumes f m (fun k hk => by
        obtain ⟨k', hk', hcur⟩ := h.turns k
        obtain ⟨-, -, x, hf, -, hd⟩ := (hj k' (by omega)).1
        refine ⟨k', hk', .resume f, rfl, ?_⟩
        simp only [step, hcur, if_true, hf, if_neg hd]; rfl)
      have hst := (e.next k).resolve_left (by rintro ⟨h1, -⟩; rw [h1] at hka; cases hka)
      obtain ⟨a, ha, hst⟩ := hst
      rw [hka] at ha; cases ha
      obtain ⟨-, -, x, hf, -, hd⟩ := (hj (k + 1) (by omega)).1
      have hcur : (e.st (k + 1)).cur = some f := by
        simp only [step] at hst
        repeat' split at hst
        all_goals first
          | (cases hst; done)
          | (have := Option.some.inj hst; rw [← this])
      obtain ⟨a, s', ha, hs'⟩ := C71_progress (el_reach h (k + 1)) hf hcur hd
      exact ⟨k + 1, by omega, a, ha, by rw [hs']; rfl⟩)
    (fun j hj ht => (step1 j hj).imp (fun g => ⟨g.1.1, g.2 ht⟩) id) n ⟨hKa, rfl, x, hf, hq, hd⟩
  exact ⟨m, hm, hQ⟩

/-- C129.  Everything that has arrived is passed to the callback eventually, unless `stop()`, or another `start()`, is called. -/
theorem C129_delivers (h : Fairly e) (q n : Nat) : ∃ m, n ≤ m ∧ (arrivals (e.st n).trace q <+: calls (e.st m).trace q ∨ .stopped q ∈ (e.st m).trace) := by
  suffices ∀ k m, n ≤ m → (arrivals (e.st n).trace q).length ≤ (calls (e.st m).trace q).length + k →
      ∃ m, n ≤ m ∧ (arrivals (e.st n).trace q <+: calls (e.st m).trace q ∨ .stopped q ∈ (e.st m).trace) from this (arrivals (e.st n).trace q).length n (Nat.le_refl _) (by omega)
  have fin : ∀ m, n ≤ m → (arrivals (e.st n).trace q).length ≤ (calls (e.st m).trace q).length → arrivals (e.st n).trace q <+: calls (e.st m).trace q := fun m hm hl =>
    List.prefix_of_prefix_length_le (el_later h q hm).1 (C71_order (el_reach h m) q) hl
  intro k
  induction k with
  | zero => intro m hm hl; exact ⟨m, hm, .inl (fin m hm hl)⟩
  | succ k ih =>
    intro m hm hl
    by_cases hc : calls (e.st m).trace q = arrivals (e.st m).trace q
    · exact ⟨m, hm, .inl (by rw [hc]; exact (el_later h q hm).1)⟩
    · obtain ⟨m', hm', hs | hg⟩ := el_once h q m hc
      · exact ⟨m', by omega, .inr hs⟩
      · exact ih m' (by omega) (by omega)

/-- Nothing can go on. -/
theorem el_quiet {s : Sys α} (hc : s.cur = none) (hd : ∀ x ∈ s.fibs, x.st = .done) (f : Nat) : ¬ Enabled step (· = .resume f) s ∧ ¬ Enabled step (Goes f) s := by
  constructor
  · rintro ⟨a, rfl, h⟩
    simp only [step, hc, if_true] at h
    split at h
    · rename_i x hx
      rw [if_pos (hd x (List.mem_of_getElem? hx))] at h
      cases h
    · cases h
  · rintro ⟨a, rfl | rfl | rfl, h⟩
    all_goals
      simp only [step, hc] at h
      rw [if_neg (by simp)] at h
      cases h

/-- Packets 7, 8 and 9 arrive.  The second arrives while the fiber waits in the callback.  After that, the fiber returns; the third packet needs another fiber. -/
def elRun : List (Act Nat) :=
  [.create, .assign, .assign, .packet 0 7, .push .no, .resume 0, .enter 0, .pop 0, .yield 0, .packet 0 8, .push .no, .resume 0, .back 0, .enter 0, .pop 0, .back 0, .enter 0, .pop 0,
   .packet 0 9, .push .no, .resume 1, .enter 1, .pop 1, .back 1, .enter 1, .pop 1]

def elExec : Exec (step (α := Nat)) := Exec.ofRun {} elRun (by decide +kernel)

theorem elExec_end {n : Nat} (hn : 26 ≤ n) : (elExec.st n).cur = none ∧ ∀ x ∈ (elExec.st n).fibs, x.st = .done := by
  have h := Exec.ofRun_end (step := step) {} elRun (by decide +kernel) n hn
  have : ∀ s, runs step {} elRun = some s → s.cur = none ∧ ∀ x ∈ s.fibs, x.st = .done := by
    have : ((runs step {} elRun).all fun s => decide (s.cur = none ∧ ∀ x ∈ s.fibs, x.st = .done)) = true := by decide +kernel
    intro s hs
    rw [hs] at this
    exact of_decide_eq_true this
  exact this _ h.symm

theorem elExec_easy : Fairly elExec where
  start := .init
  turns n := ⟨n + 26, by omega, (elExec_end (by omega)).1⟩
  resumes f n h := by
    obtain ⟨k, hk, he⟩ := h (n + 26) (by omega)
    have := elExec_end (n := k) (by omega)
    exact absurd he (el_quiet this.1 this.2 f).1
  goes f n h := by
    obtain ⟨k, hk, he⟩ := h (n + 26) (by omega)
    have := elExec_end (n := k) (by omega)
    exact absurd he (el_quiet this.1 this.2 f).2

/- At time 12, packet 8 has arrived but has not been passed to the callback. -/
example : Fairly elExec ∧ arrivals (elExec.st 12).trace 0 = [7, 8] ∧ calls (elExec.st 12).trace 0 = [7] ∧ calls (elExec.st 26).trace 0 = [7, 8, 9] ∧ .stopped 0 ∉ (elExec.st 26).trace :=
  ⟨elExec_easy, by decide +kernel, by decide +kernel, by decide +kernel, by decide +kernel⟩

end Verif.Props
