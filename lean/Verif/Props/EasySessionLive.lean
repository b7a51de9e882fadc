import Verif.Spec.EasyLive
import Verif.Proofs.Live
import Verif.Props.Easy
/-!
# C129: what happens to the sockets of easy servers and clients is passed to the callback
-/
namespace Verif.Props
open Verif.Easy Verif.Live

section
variable {M : Type} [DecidableEq M]

/-- How far a fiber is from the next call of the callback. -/
def es_rank : Easy.FSt M → Nat
  | .calling _ _ => 2
  | .ready => 1
  | .done => 0

/-- The trace only grows. -/
theorem es_trace {s s' : Easy.Sys M} {a : Easy.Act M} (h : Easy.step s a = some s') : s.trace <:+ s'.trace := by
  cases a with
  | push sid ev fail =>
    simp only [Easy.step] at h
    split at h
    · cases h
      unfold Easy.push
      repeat' split
      all_goals exact List.suffix_cons _ _
    · cases h
  | loop f =>
    simp only [Easy.step] at h
    repeat' split at h
    all_goals first
      | (cases h; done)
      | skip
    cases h
    unfold Easy.loop
    dsimp only
    split
    · exact List.suffix_rfl
    · split
      · exact List.suffix_rfl
      · split
        · exact List.suffix_rfl
        · exact List.suffix_cons _ _
  | back f n =>
    simp only [Easy.step] at h
    repeat' split at h
    all_goals first
      | (cases h; done)
      | skip
    cases h
    unfold Easy.back
    dsimp only
    repeat' split
    all_goals exact List.suffix_cons _ _
  | _ =>
    simp only [Easy.step] at h
    repeat' split at h
    all_goals first
      | (cases h; done)
      | (cases h; exact List.suffix_rfl)
      | (cases h; exact List.suffix_cons _ _)

theorem es_arrivals {q : Nat} : ∀ (p : List (Easy.Ev M)) (t : List (Easy.Ev M)), Easy.arrivals t q <+: Easy.arrivals (p ++ t) q
  | [], _ => List.prefix_rfl
  | x :: p, t => by
    refine (es_arrivals p t).trans ?_
    show Easy.arrivals (p ++ t) q <+: Easy.arrivals (x :: (p ++ t)) q
    cases x
    all_goals simp only [Easy.arrivals]
    all_goals first
      | exact List.prefix_rfl
      | (split
         · exact List.prefix_append _ _
         · exact List.prefix_rfl)

theorem es_handled {q : Nat} : ∀ (p : List (Easy.Ev M)) (t : List (Easy.Ev M)), handled t q <+: handled (p ++ t) q
  | [], _ => List.prefix_rfl
  | x :: p, t => by
    refine (es_handled p t).trans ?_
    show handled (p ++ t) q <+: handled (x :: (p ++ t)) q
    cases x
    all_goals simp only [handled]
    all_goals first
      | exact List.prefix_rfl
      | (split
         · exact List.prefix_append _ _
         · exact List.prefix_rfl)

structure EsMono (s s' : Easy.Sys M) (i : Nat) : Prop where
  arr : Easy.arrivals s.trace i <+: Easy.arrivals s'.trace i
  hnd : handled s.trace i <+: handled s'.trace i
  lost : Lost s.trace i → Lost s'.trace i
  count : s.count ≤ s'.count
  careful : s'.careful = s.careful
  addr : i < s.count → s'.addr i = s.addr i

theorem EsMono.rfl {s : Easy.Sys M} {i : Nat} : EsMono s s i := ⟨List.prefix_rfl, List.prefix_rfl, id, Nat.le_refl _, Eq.refl _, fun _ => Eq.refl _⟩

theorem EsMono.trans {s s' s'' : Easy.Sys M} {i : Nat} (h1 : EsMono s s' i) (h2 : EsMono s' s'' i) : EsMono s s'' i :=
  ⟨h1.arr.trans h2.arr, h1.hnd.trans h2.hnd, fun h => h2.lost (h1.lost h), Nat.le_trans h1.count h2.count, h2.careful.trans h1.careful,
    fun h => (h2.addr (Nat.lt_of_lt_of_le h h1.count)).trans (h1.addr h)⟩

theorem es_mono {s s' : Easy.Sys M} {a : Easy.Act M} (h : Easy.step s a = some s') (i : Nat) : EsMono s s' i := by
  obtain ⟨p, hp⟩ := es_trace h
  have hrest : s.count ≤ s'.count ∧ s'.careful = s.careful ∧ (i < s.count → s'.addr i = s.addr i) := by
    cases a with
    | accept b =>
      simp only [Easy.step] at h
      repeat' split at h
      all_goals first
        | (cases h; done)
        | skip
      cases h
      refine ⟨Nat.le_succ _, rfl, fun hi => ?_⟩
      show (if i = s.count then b else s.addr i) = _
      rw [if_neg (by omega)]
    | push sid ev fail =>
      simp only [Easy.step] at h
      split at h
      · cases h
        unfold Easy.push
        repeat' split
        all_goals exact ⟨Nat.le_refl _, rfl, fun _ => rfl⟩
      · cases h
    | loop f =>
      simp only [Easy.step] at h
      repeat' split at h
      all_goals first
        | (cases h; done)
        | skip
      cases h
      unfold Easy.loop
      dsimp only
      repeat' split
      all_goals exact ⟨Nat.le_refl _, rfl, fun _ => rfl⟩
    | back f n =>
      simp only [Easy.step] at h
      repeat' split at h
      all_goals first
        | (cases h; done)
        | skip
      cases h
      unfold Easy.back
      dsimp only
      repeat' split
      all_goals exact ⟨Nat.le_refl _, rfl, fun _ => rfl⟩
    | _ =>
      simp only [Easy.step] at h
      repeat' split at h
      all_goals first
        | (cases h; done)
        | (cases h; exact ⟨Nat.le_refl _, rfl, fun _ => rfl⟩)
  refine ⟨?_, ?_, ?_, hrest.1, hrest.2.1, hrest.2.2⟩
  · rw [← hp]; exact es_arrivals p _
  · rw [← hp]; exact es_handled p _
  · rw [← hp]
    rintro (h | ⟨ev, h⟩)
    · exact .inl (List.mem_append_right _ h)
    · exact .inr ⟨ev, List.mem_append_right _ h⟩

/-- What a step does to a fiber whose session has something: it comes nearer to the next call, or calls. -/
theorem es_step {s s' : Easy.Sys M} {a : Easy.Act M} (hr : Easy.Reachable s) (hcare : s.careful = true) (h : Easy.step s a = some s') {f i : Nat} {x : Easy.Fiber M} (hf : s.fibs[f]? = some x) (hd : x.st ≠ .done)
    (hi : i < s.count) (hx : x.addr = s.addr i) (hk : handled s.trace i ≠ Easy.arrivals s.trace i) (hcl : ¬ Closed s.trace i) (hl : ¬ Lost s.trace i) :
    (∃ x', s'.fibs[f]? = some x' ∧ x'.addr = x.addr ∧ x'.st ≠ .done ∧ es_rank x'.st ≤ es_rank x.st ∧ (Easy.Goes f a → es_rank x'.st < es_rank x.st)) ∨
    (handled s'.trace i).length = (handled s.trace i).length + 1 := by
  have same : s'.fibs[f]? = some x → ¬ Easy.Goes f a → (∃ x', s'.fibs[f]? = some x' ∧ x'.addr = x.addr ∧ x'.st ≠ .done ∧ es_rank x'.st ≤ es_rank x.st ∧ (Easy.Goes f a → es_rank x'.st < es_rank x.st)) ∨
    (handled s'.trace i).length = (handled s.trace i).length + 1 := fun h1 h2 => .inl ⟨x, h1, rfl, hd, Nat.le_refl _, fun h => absurd h h2⟩
  have hother : ∀ {g : Nat} {st : Easy.FSt M}, g ≠ f → (Easy.setFib s g st)[f]? = some x := fun hg => by rw [Easy.setFib_get, if_neg hg]; exact hf
  have hself : ∀ {st : Easy.FSt M}, (Easy.setFib s f st)[f]? = some { x with st := st } := by intro st; rw [Easy.setFib_get, if_pos rfl, hf]; rfl
  cases a with
  | push sid ev fail =>
    have hng : ¬ Easy.Goes f (Easy.Act.push sid ev fail) := by simp [Easy.Goes]
    simp only [Easy.step] at h
    split at h
    · cases h
      unfold Easy.push at same ⊢
      split
      · rename_i h1; rw [if_pos h1] at same; exact same hf hng
      rename_i h1; rw [if_neg h1] at same
      split
      · rename_i h2; rw [h2] at same; exact same hf hng
      · rename_i q h2
        rw [h2] at same
        have hfib : (if q.active then s.fibs else s.fibs ++ [{ addr := s.addr sid }])[f]? = some x := by
          split
          · exact hf
          · rw [List.getElem?_append_left (List.getElem?_eq_some_iff.1 hf).1]; exact hf
        cases fail with
        | launch => exact same hf hng
        | push => exact same hfib hng
        | no => exact same hfib hng
    · cases h
  | loop g =>
    simp only [Easy.step] at h
    split at h
    · by_cases hg : g = f
      · subst hg
        rw [hf] at h
        dsimp only at h
        split at h
        · obtain ⟨q, hq, rfl⟩ := ((Easy.inv hr hcare).compl i hi).resolve_right (fun h => h.elim hcl hl)
          have hal : alive s = true := by
            cases ha : alive s with
            | true => rfl
            | false => rw [(Easy.inv hr hcare).alv ha] at hq; cases hq
          have hseq := ((Easy.inv hr hcare).seq _ q hq).1
          cases h
          right
          unfold Easy.loop
          rw [if_neg (by simp [hal]), hx, hq]
          dsimp only
          cases hev : q.events with
          | nil => rw [hev, List.append_nil] at hseq; exact absurd hseq.symm hk
          | cons ev r =>
            dsimp only
            split
            · simp only [handled, if_pos, List.length_append, List.length_singleton]
            · simp only [handled, if_pos, List.length_append, List.length_singleton]
        · cases h
      · have hng : ¬ Easy.Goes f (Easy.Act.loop g : Easy.Act M) := by
          rintro (h | ⟨n, h⟩)
          · cases h; exact hg rfl
          · cases h
        repeat' split at h
        all_goals first
          | (cases h; done)
          | skip
        refine same ?_ hng
        cases h
        unfold Easy.loop
        dsimp only
        repeat' split
        all_goals exact hother hg
    · cases h
  | back g n =>
    simp only [Easy.step] at h
    split at h
    · by_cases hg : g = f
      · subst hg
        rw [hf] at h
        dsimp only at h
        split at h
        · rename_i sid ev hst
          left
          refine ⟨{ x with st := .ready }, ?_, rfl, by simp, by rw [hst]; simp [es_rank], fun _ => by rw [hst]; simp [es_rank]⟩
          cases h
          unfold Easy.back
          dsimp only
          repeat' split
          all_goals exact hself
        · cases h
      · have hng : ¬ Easy.Goes f (Easy.Act.back g n : Easy.Act M) := by
          rintro (h | ⟨n, h⟩)
          · cases h
          · cases h; exact hg rfl
        repeat' split at h
        all_goals first
          | (cases h; done)
          | skip
        refine same ?_ hng
        cases h
        unfold Easy.back
        dsimp only
        repeat' split
        all_goals exact hother hg
    · cases h
  | _ =>
    simp only [Easy.step] at h
    repeat' split at h
    all_goals first
      | (cases h; done)
      | (cases h; exact same hf (by simp [Easy.Goes]))

/-- A fiber that is running can go on. -/
theorem es_progress {s : Easy.Sys M} {f : Nat} {x : Easy.Fiber M} (hf : s.fibs[f]? = some x) (hd : x.st ≠ .done) (hc : s.cur = some f) : Enabled Easy.step (Easy.Goes f) s := by
  cases hst : x.st with
  | done => exact absurd hst hd
  | ready => exact ⟨.loop f, .inl rfl, by simp only [Easy.step, hc, if_true, hf, hst]; rfl⟩
  | calling i ev => exact ⟨.back f 0, .inr ⟨0, rfl⟩, by simp only [Easy.step, hc, if_true, hf, hst]; rfl⟩

variable {e : Exec (Easy.step (M := M))}

theorem es_reach (h : Easy.Fairly e) (n : Nat) : Easy.Reachable (e.st n) :=
  e.always (P := Easy.Reachable) 0 h.start (fun _ _ _ h1 h2 => .step h1 h2) n (Nat.zero_le _)

theorem es_later (i : Nat) {n m : Nat} (hm : n ≤ m) : EsMono (e.st n) (e.st m) i :=
  e.always (P := fun s => EsMono (e.st n) s i) n .rfl (fun _ _ _ h1 hs => h1.trans (es_mono hs i)) m hm

/-- The callback is called once more. -/
theorem es_once (h : Easy.Fairly e) (i n : Nat) (hcare : (e.st n).careful = true) (hi : i < (e.st n).count) (hk : handled (e.st n).trace i ≠ Easy.arrivals (e.st n).trace i) :
    ∃ m, n ≤ m ∧ (Closed (e.st m).trace i ∨ Lost (e.st m).trace i ∨ (handled (e.st n).trace i).length < (handled (e.st m).trace i).length) := by
  by_cases hcl : Closed (e.st n).trace i
  · exact ⟨n, Nat.le_refl _, .inl hcl⟩
  by_cases hl : Lost (e.st n).trace i
  · exact ⟨n, Nat.le_refl _, .inr (.inl hl)⟩
  obtain ⟨f, x, hf, hx, hd⟩ := (C39_pending_partial (es_reach h n) hcare hi hk).resolve_right (fun h => h.elim hcl hl)
  let K := (handled (e.st n).trace i).length
  have hKa : K < (Easy.arrivals (e.st n).trace i).length := by
    obtain ⟨r, hr⟩ := (C39_order_partial (es_reach h n) hcare i).1
    have : r ≠ [] := by rintro rfl; rw [List.append_nil] at hr; exact hk hr
    have := List.length_pos_iff.2 this
    rw [← hr, List.length_append]; omega
  let P : Nat → Prop := fun j => n ≤ j ∧ ¬ Closed (e.st j).trace i ∧ ¬ Lost (e.st j).trace i ∧ (handled (e.st j).trace i).length = K ∧
    ∃ x, (e.st j).fibs[f]? = some x ∧ x.addr = (e.st j).addr i ∧ x.st ≠ .done
  let Q : Nat → Prop := fun j => Closed (e.st j).trace i ∨ Lost (e.st j).trace i ∨ K < (handled (e.st j).trace i).length
  let μ : Nat → Nat := fun j => match (e.st j).fibs[f]? with
    | some x => es_rank x.st
    | none => 0
  have step1 : ∀ j, P j → ((P (j + 1) ∧ μ (j + 1) ≤ μ j) ∧ (e.Taken (Easy.Goes f) j → μ (j + 1) < μ j)) ∨ Q (j + 1) := by
    rintro j ⟨h0, h1, h2, h3, x, hf, hx, hd⟩
    have hn := es_later (e := e) i h0
    have hl := es_later (e := e) i (n := j) (m := j + 1) (by omega)
    by_cases hc1 : Closed (e.st (j + 1)).trace i
    · exact .inr (.inl hc1)
    by_cases hc2 : Lost (e.st (j + 1)).trace i
    · exact .inr (.inr (.inl hc2))
    rcases e.next j with ⟨ha, hn⟩ | ⟨a, ha, hst⟩
    · left
      refine ⟨⟨⟨by omega, hc1, hc2, by rw [hn]; exact h3, x, by rw [hn]; exact hf, by rw [hn]; exact hx, hd⟩, by simp only [μ, hn]; exact Nat.le_refl _⟩, ?_⟩
      rintro ⟨a, ha', -⟩
      rw [ha] at ha'; cases ha'
    · have hij : i < (e.st j).count := Nat.lt_of_lt_of_le hi hn.count
      rcases es_step (es_reach h j) (hn.careful.trans hcare) hst hf hd hij hx (by intro hc; have := hn.arr.length_le; rw [← hc] at this; omega) h1 h2 with ⟨x', g1, g2, g3, g4, g5⟩ | hc
      · by_cases hcl : (handled (e.st (j + 1)).trace i).length = K
        · left
          refine ⟨⟨⟨by omega, hc1, hc2, hcl, x', g1, by rw [g2, hx, hl.addr hij], g3⟩, by simp only [μ, g1, hf]; exact g4⟩, ?_⟩
          rintro ⟨b, hb, hgo⟩
          rw [ha] at hb; cases hb
          simp only [μ, g1, hf]; exact g5 hgo
        · right; right; right
          have := hl.hnd.length_le
          omega
      · right; right; right; omega
  exact e.leads_often (P := P) (Q := Q) (T := Easy.Goes f) μ
    (fun j hj => (step1 j hj).imp (·.1) id)
    (fun j hj => by
      apply h.goes f
      intro m hm
      obtain ⟨k, hk1, a, hka, rfl⟩ := h.resumes f m (fun k hk => by
        obtain ⟨k', hk', hcur⟩ := h.turns k
        obtain ⟨-, -, -, -, x, hf, -, hd⟩ := (hj k' (by omega)).1
        refine ⟨k', hk', .resume f, rfl, ?_⟩
        simp only [Easy.step, hcur, if_true, hf, if_neg hd]; rfl)
      have hst := (e.next k).resolve_left (by rintro ⟨h1, -⟩; rw [h1] at hka; cases hka)
      obtain ⟨a, ha, hst⟩ := hst
      rw [hka] at ha; cases ha
      obtain ⟨-, -, -, -, x, hf, -, hd⟩ := (hj (k + 1) (by omega)).1
      have hcur : (e.st (k + 1)).cur = some f := by
        simp only [Easy.step] at hst
        repeat' split at hst
        all_goals first
          | (cases hst; done)
          | (have := Option.some.inj hst; rw [← this])
      exact ⟨k + 1, by omega, es_progress hf hd hcur⟩)
    (fun j hj ht => (step1 j hj).imp (fun g => ⟨g.1.1, g.2 ht⟩) id) n ⟨Nat.le_refl _, hcl, hl, rfl, x, hf, hx, hd⟩

theorem es_upTo_mono {l l' : List (Event M)} (h : l <+: l') : upToClose l <+: upToClose l' := by
  obtain ⟨r, rfl⟩ := h
  induction l with
  | nil => exact List.nil_prefix
  | cons x l ih =>
    simp only [upToClose, List.cons_append]
    split
    · exact List.prefix_rfl
    · exact List.cons_prefix_cons.2 ⟨rfl, ih⟩

theorem es_upTo (l : List (Event M)) : upToClose l <+: l := by
  induction l with
  | nil => exact List.prefix_rfl
  | cons x l ih =>
    simp only [upToClose]
    split
    · exact List.cons_prefix_cons.2 ⟨rfl, List.nil_prefix⟩
    · exact List.cons_prefix_cons.2 ⟨rfl, ih⟩

/-- C129.  Everything that has happened to the socket of a session, up to its closure, is passed to the callback eventually, unless memory runs out, or the server is stopped.  PARTIAL: see
`C39_reuse`. -/
theorem C129_events_partial (h : Easy.Fairly e) (hcare : (e.st 0).careful = true) {i n : Nat} (hi : i < (e.st n).count) :
    ∃ m, n ≤ m ∧ (upToClose (Easy.arrivals (e.st n).trace i) <+: handled (e.st m).trace i ∨ Lost (e.st m).trace i) := by
  have hca : ∀ j, (e.st j).careful = true := fun j => (es_later (e := e) i (Nat.zero_le j)).careful.trans hcare
  suffices ∀ k m, n ≤ m → (Easy.arrivals (e.st n).trace i).length ≤ (handled (e.st m).trace i).length + k →
      ∃ m, n ≤ m ∧ (upToClose (Easy.arrivals (e.st n).trace i) <+: handled (e.st m).trace i ∨ Lost (e.st m).trace i) from this (Easy.arrivals (e.st n).trace i).length n (Nat.le_refl _) (by omega)
  have fin : ∀ m, n ≤ m → (Easy.arrivals (e.st n).trace i).length ≤ (handled (e.st m).trace i).length → upToClose (Easy.arrivals (e.st n).trace i) <+: handled (e.st m).trace i := fun m hm hl =>
    (es_upTo _).trans (List.prefix_of_prefix_length_le (es_later i hm).arr (C39_order_partial (es_reach h m) (hca m) i).1 hl)
  intro k
  induction k with
  | zero => intro m hm hl; exact ⟨m, hm, .inl (fin m hm hl)⟩
  | succ k ih =>
    intro m hm hl
    by_cases hc : handled (e.st m).trace i = Easy.arrivals (e.st m).trace i
    · exact ⟨m, hm, .inl (by rw [hc]; exact (es_upTo _).trans (es_later i hm).arr)⟩
    · obtain ⟨m', hm', hs | hs | hg⟩ := es_once h i m (hca m) (Nat.lt_of_lt_of_le hi (es_later (e := e) i hm).count) hc
      · refine ⟨m', by omega, .inl ?_⟩
        obtain ⟨ev, he, hec⟩ := hs
        obtain ⟨a, b, hab⟩ := List.append_of_mem he
        have hp := C39_order_partial (es_reach h m') (hca m') i
        have hb : b = [] := hp.2 a ev b hab hec
        subst hb
        obtain ⟨r, hr⟩ := hp.1
        have hdl := ((Easy.inv (es_reach h m') (hca m')).pre i).2
        rw [hab, List.dropLast_concat] at hdl
        refine (es_upTo_mono (es_later i (show n ≤ m' by omega)).arr).trans ?_
        rw [← hr, hab, List.append_assoc, List.singleton_append, upToClose_append r hdl hec]
        exact List.prefix_rfl
      · exact ⟨m', by omega, .inr hs⟩
      · exact ih m' (by omega) (by omega)

/-- Nothing can go on. -/
theorem es_quiet {s : Easy.Sys M} (hc : s.cur = none) (hd : ∀ x ∈ s.fibs, x.st = .done) (f : Nat) : ¬ Enabled Easy.step (· = .resume f) s ∧ ¬ Enabled Easy.step (Easy.Goes f) s := by
  constructor
  · rintro ⟨a, rfl, h⟩
    simp only [Easy.step, hc, if_true] at h
    split at h
    · rename_i x hx
      rw [if_pos (hd x (List.mem_of_getElem? hx))] at h
      cases h
    · cases h
  · rintro ⟨a, rfl | ⟨n, rfl⟩, h⟩
    all_goals
      simp only [Easy.step, hc] at h
      rw [if_neg (by simp)] at h
      cases h

end

def esExec : Exec (Easy.step (M := Unit)) := Exec.ofRun { careful := true } easyDemo (by decide +kernel)

theorem esExec_end {n : Nat} (hn : 30 ≤ n) : (esExec.st n).cur = none ∧ ∀ x ∈ (esExec.st n).fibs, x.st = .done := by
  have h := Exec.ofRun_end (step := Easy.step) { careful := true } easyDemo (by decide +kernel) n hn
  have : ∀ s, runs Easy.step { careful := true } easyDemo = some s → s.cur = none ∧ ∀ x ∈ s.fibs, x.st = .done := by
    have : ((runs Easy.step { careful := true } easyDemo).all fun s => decide (s.cur = none ∧ ∀ x ∈ s.fibs, x.st = .done)) = true := by decide +kernel
    intro s hs
    rw [hs] at this
    exact of_decide_eq_true this
  exact this _ h.symm

theorem esExec_easy : Easy.Fairly esExec where
  start := .init true
  turns n := ⟨n + 30, by omega, (esExec_end (by omega)).1⟩
  resumes f n h := by
    obtain ⟨k, hk, he⟩ := h (n + 30) (by omega)
    have := esExec_end (n := k) (by omega)
    exact absurd he (es_quiet this.1 this.2 f).1
  goes f n h := by
    obtain ⟨k, hk, he⟩ := h (n + 30) (by omega)
    have := esExec_end (n := k) (by omega)
    exact absurd he (es_quiet this.1 this.2 f).2

/- After 5 steps, data have arrived on the first socket, but have not been passed to the callback, which is running. -/
example : Easy.Fairly esExec ∧ (esExec.st 0).careful = true ∧ 0 < (esExec.st 5).count ∧ Easy.arrivals (esExec.st 5).trace 0 = [easyOpen, easyData [1, 2, 3]] ∧ handled (esExec.st 5).trace 0 = [easyOpen] ∧
    .stopped ∉ (esExec.st 30).trace :=
  ⟨esExec_easy, rfl, by decide +kernel, by decide +kernel, by decide +kernel, by decide +kernel⟩

end Verif.Props
