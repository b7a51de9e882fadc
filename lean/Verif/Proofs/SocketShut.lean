import Verif.Proofs.SocketInv
namespace Verif.Socket

/-! ### Positions inside `tcp_shut_down` -/

def okFrame (st : State) : Frame → Prop
  | .shut_pending_x => st ≠ .established
  | .shut_established => st ≠ .pending
  | .shut_established_x => st.rank ≥ 1
  | .shut_ok => st = .closed
  | _ => True

theorem okFrame_closed (f : Frame) : okFrame .closed f := by cases f <;> simp [okFrame, State.rank]

theorem okFrame_unlocked {st f} (h : f.locked = false) : okFrame st f := by cases f <;> simp_all [okFrame, Frame.locked]

theorem advance_state {ssl s t f r o s'} (h : advance ssl s t f r o = some s') : s'.state = s.state ∨ s'.state = .closed ∨ f.locked = true := by
  adv h f <;> first | exact .inl rfl | exact .inr (.inl rfl) | exact .inr (.inr rfl) | (split <;> first | exact .inl rfl | exact .inr (.inr rfl))

theorem okFrame_under {st : State} {f : Frame} {t g r} (h : Place t f.kind (g :: r)) (hf : f.kind ≠ .quick) : okFrame st g := by
  cases g <;> simp_all [okFrame, Place]

theorem advance_top {ssl s t f r o s'} (h : advance ssl s t f r o = some s') (hr : s.stk t = f :: r) (hsh : Shape t (f :: r)) (hf : okFrame s.state f) :
    ∀ g r', s'.stk t = g :: r' → okFrame s'.state g := by
  have hu : f.kind ≠ .quick → ∀ st g r', r = g :: r' → okFrame st g := by
    intro hk st g r' hr
    have := hsh.1
    rw [hr] at this
    exact okFrame_under this hk
  intro g r' hg
  adv h f <;> simp only [emit_stk, go_stk, if_true, List.cons.injEq, hr] at hg <;>
    first
    | exact okFrame_closed _
    | exact hu (by simp [Frame.kind]) _ _ _ hg
    | (obtain ⟨rfl, -⟩ := hg; first | trivial | exact hf | simp_all [okFrame, State.rank])
    | (split at hg <;> first | exact hu (by simp [Frame.kind]) _ _ _ hg | (obtain ⟨rfl, -⟩ := List.cons.inj hg; first | trivial | simp_all [okFrame, State.rank]))
    | (split at hg <;> split at hg <;> first | exact hu (by simp [Frame.kind]) _ _ _ hg | (obtain ⟨rfl, -⟩ := List.cons.inj hg; first | trivial | simp_all [okFrame, State.rank]))
    | skip

theorem top_ok {ssl s} (h : Reachable ssl s) : ∀ t f r, s.stk t = f :: r → okFrame s.state f := by
  induction h with
  | init => intro t f r h; exact nomatch h
  | @step s s' a hrch hs ih =>
    rcases step_cases hs with ⟨t, f, rfl, hm, hf⟩ | ⟨t, d, rfl, hm⟩ | ⟨t, f, r, o, hr, hw, hadv⟩ | ⟨fl, -, -, -, rfl⟩ | ⟨fl, n, h0, -, rfl⟩
    · intro u g r hg
      by_cases hu : u = t
      · subst hu
        simp only [go_stk, if_true] at hg
        cases hg
        rcases hf with rfl | rfl <;> trivial
      · simp only [go_stk, hu, if_false] at hg
        exact ih u g r hg
    · intro u g r hg
      by_cases hu : u = t
      · subst hu
        simp only [emit_stk, go_stk, if_true] at hg
        cases hg
        trivial
      · simp only [emit_stk, go_stk, hu, if_false] at hg
        exact ih u g r hg
    · have hsh := shape hrch t
      rw [hr] at hsh
      obtain ⟨-, h2⟩ := advance_shape hadv hr hsh
      intro u g r' hg
      by_cases hu : u = t
      · subst hu
        exact advance_top hadv hr hsh (ih u f r hr) g r' hg
      · rw [h2 u hu] at hg
        rcases advance_state hadv with h | h | h
        · rw [h]; exact ih u g r' hg
        · rw [h]; exact okFrame_closed _
        · cases hl : g.locked with
          | false => exact okFrame_unlocked hl
          | true =>
            have h1 : holds s t = true := by unfold holds; rw [hr]; simp [h]
            have h3 : holds s u = true := by unfold holds; rw [hg]; simp [hl]
            exact absurd ((mutex hrch).2.2 u t h3 h1) hu
    · exact ih
    · intro u g r hg
      by_cases hu : u = 0
      · subst hu
        simp only [go_stk, if_true] at hg
        cases hg
        trivial
      · simp only [go_stk, hu, if_false] at hg
        exact ih u g r hg

/-! ### After a shutdown -/

theorem advance_shut {ssl s t f r o s'} (h : advance ssl s t f r o = some s') (hf : okFrame s.state f) (b : Bool)
    (hb : Ev.shut b ∈ s'.trace) : Ev.shut b ∈ s.trace ∨ s'.state.rank ≥ 2 := by
  have rk : ∀ st : State, st ≠ .pending → st ≠ .established → st.rank ≥ 2 := by intro st; cases st <;> simp [State.rank]
  cases f with
  | shut_check | shut_ok | shut_pending_x | shut_established | shut_established_x =>
    simp only [advance, okFrame] at h hf
    (repeat' split at h) <;> cases h <;> simp only [emit_trace, go_trace, List.mem_cons, reduceCtorEq, false_or] at hb <;>
      first
      | exact .inl hb
      | (right; simp only [emit_state, go_state]; first | decide | assumption | (rw [hf]; decide) | exact rk _ hf (by assumption) | exact rk _ (by rintro hc; rw [hc] at hf; simp [State.rank] at hf) (by assumption))
  | _ =>
    left
    simp only [advance] at h
    (repeat' split at h) <;> cases h <;> simp_all <;> (split at hb <;> simp_all)

theorem shut_state {ssl s} (h : Reachable ssl s) (b : Bool) (hb : Ev.shut b ∈ s.trace) : s.state.rank ≥ 2 := by
  induction h with
  | init => exact nomatch hb
  | @step s s' a hrch hs ih =>
    have mono := step_mono hs
    rcases step_cases hs with ⟨t, f, rfl, hm, hf⟩ | ⟨t, d, rfl, hm⟩ | ⟨t, f, r, o, hr, hw, hadv⟩ | ⟨fl, -, -, -, rfl⟩ | ⟨fl, n, h0, -, rfl⟩
    · exact ih hb
    · exact ih (by simpa using hb)
    · rcases advance_shut hadv (top_ok hrch t f r hr) b hb with h | h
      · exact Nat.le_trans (ih h) mono
      · exact h
    · exact ih hb
    · exact ih hb

/-- No return of `tcp_shut_down` comes before the call. -/
def NotLate (tr : List Ev) (id : Nat) : Prop := ∀ a b d, tr = a ++ Ev.call_send id d :: b → ∀ x, Ev.shut x ∉ b

theorem NotLate.cons {tr : List Ev} {id : Nat} {e : Ev} (h : NotLate tr id) (he : ∀ d, e ≠ .call_send id d) : NotLate (e :: tr) id := by
  intro a b d heq
  cases a with
  | nil => cases heq; exact absurd rfl (he d)
  | cons y a => cases heq; exact h a b d rfl

theorem NotLate.append {tr : List Ev} {id : Nat} {es : List Ev} (h : NotLate tr id) (he : ∀ e ∈ es, ∀ d, e ≠ .call_send id d) : NotLate (es ++ tr) id := by
  induction es with
  | nil => exact h
  | cons e es ih => exact (ih fun e' h' => he e' (List.mem_cons_of_mem _ h')).cons (he e (by simp))

def Frame.pastId : Frame → Option Nat
  | .send_lock id _ | .send_top id _ | .send_loop id _ _ => some id
  | _ => none

structure Late (s : Sys) : Prop where
  fresh : ∀ id d, Ev.call_send id d ∈ s.trace → id < s.ids
  freshF : ∀ t f, f ∈ s.stk t → ∀ id, f.pastId = some id → id < s.ids
  freshS : ∀ id d, Ev.sent id d ∈ s.trace → id < s.ids
  freshC : ∀ t id d, Frame.send_check id d ∈ s.stk t → id < s.ids
  past : ∀ t f, f ∈ s.stk t → ∀ id, f.pastId = some id → NotLate s.trace id
  sent : ∀ id d, Ev.sent id d ∈ s.trace → NotLate s.trace id

/-- What a transition of a frame does to what `Late` speaks about. -/
theorem advance_late {ssl s t f r o s'} (h : advance ssl s t f r o = some s') (hr : s.stk t = f :: r) :
    s'.ids = s.ids ∧ (∃ es, s'.trace = es ++ s.trace ∧ (∀ e ∈ es, ∀ id d, e ≠ .call_send id d) ∧
      (∀ id d, Ev.sent id d ∈ es → f.pastId = some id)) ∧
    (∀ g ∈ s'.stk t, (g ∈ r ∨ g = f) ∨ (∀ id d, g ≠ .send_check id d) ∧ (g.pastId = none ∨ g.pastId = f.pastId ∨ ((∃ id d, f = .send_check id d ∧ g.pastId = some id) ∧ s.state.rank < 2 ∧ s'.trace = s.trace))) := by
  adv h f <;> (refine ⟨by first | rfl | (split <;> rfl), ?_, ?_⟩) <;>
    first
    | (first
       | exact ⟨[], rfl, by simp, by simp⟩
       | exact ⟨[_], rfl, by simp, by simp [Frame.pastId]⟩
       | exact ⟨[_, _], rfl, by simp, by simp [Frame.pastId]⟩
       | (split <;> exact ⟨[_], rfl, by simp, by simp [Frame.pastId]⟩))
    | (intro g hg
       simp only [emit_stk, go_stk, if_true, List.mem_cons, hr] at hg
       first
       | exact .inl (.inl hg)
       | exact hg.elim (fun h => .inl (.inr h)) (fun h => .inl (.inl h))
       | (rcases hg with rfl | hg
          · exact .inr ⟨by simp, .inr (.inr ⟨⟨_, _, rfl, rfl⟩, by simp_all [State.rank], rfl⟩)⟩
          · exact .inl (.inl hg))
       | (rcases hg with rfl | hg
          · first | exact .inr ⟨by simp, .inl rfl⟩ | exact .inr ⟨by simp, .inr (.inl rfl)⟩
          · exact .inl (.inl hg))
       | (rcases hg with rfl | rfl | hg
          · exact .inr ⟨by simp, .inl rfl⟩
          · exact .inr ⟨by simp, .inl rfl⟩
          · exact .inl (.inl hg))
       | (split at hg <;>
          first
          | exact .inl (.inl hg)
          | (simp only [List.mem_cons] at hg
             rcases hg with rfl | hg
             · exact .inr ⟨by simp, .inl rfl⟩
             · exact .inl (.inl hg)))
       | (split at hg
          · rcases hg with rfl | hg
            · exact .inr ⟨by simp, .inl rfl⟩
            · exact .inl (.inl hg)
          · rcases hg with rfl | hg
            · exact .inr ⟨by simp, .inl rfl⟩
            · exact .inl (.inl hg))
       | skip)

theorem notLate_of_no_shut {tr : List Ev} (h : ∀ b, Ev.shut b ∉ tr) (id : Nat) : NotLate tr id := by
  intro a b d heq x hx
  exact h x (by rw [heq]; simp [hx])

theorem late {ssl s} (h : Reachable ssl s) : Late s := by
  induction h with
  | init => exact ⟨nofun, nofun, nofun, nofun, nofun, nofun⟩
  | @step s s' a hrch hs ih =>
    rcases step_cases hs with ⟨t, f, rfl, hm, hf⟩ | ⟨t, d, rfl, hm⟩ | ⟨t, f, r, o, hr, hw, hadv⟩ | ⟨fl, -, -, -, rfl⟩ | ⟨fl, n, h0, -, rfl⟩
    · have mem : ∀ u g, g ∈ (s.go t (f :: s.stk t)).stk u → g ∈ s.stk u ∨ g = f := by
        intro u g hg
        by_cases hu : u = t
        · subst hu
          simp only [go_stk, if_true, List.mem_cons] at hg
          exact hg.symm
        · simp only [go_stk, hu, if_false] at hg; exact .inl hg
      refine ⟨ih.fresh, ?_, ih.freshS, ?_, ?_, ih.sent⟩
      · intro u g hg id hid
        rcases mem u g hg with h | rfl
        · exact ih.freshF u g h id hid
        · rcases hf with rfl | rfl <;> exact nomatch hid
      · intro u id d hg
        rcases mem u _ hg with h | rfl
        · exact ih.freshC u id d h
        · rcases hf with h | h <;> exact nomatch h
      · intro u g hg id hid
        rcases mem u g hg with h | rfl
        · exact ih.past u g h id hid
        · rcases hf with rfl | rfl <;> exact nomatch hid
    · have mem : ∀ u g, g ∈ (s.go t (.send_check s.ids d :: s.stk t)).stk u → g ∈ s.stk u ∨ g = .send_check s.ids d := by
        intro u g hg
        by_cases hu : u = t
        · subst hu
          simp only [go_stk, if_true, List.mem_cons] at hg
          exact hg.symm
        · simp only [go_stk, hu, if_false] at hg; exact .inl hg
      have lt {id : Nat} (h : id < s.ids) : id < s.ids + 1 := by omega
      have ne {id : Nat} (h : id < s.ids) : ∀ d', Ev.call_send s.ids d ≠ .call_send id d' := by
        intro d' h'; cases h'; omega
      refine ⟨?_, ?_, ?_, ?_, ?_, ?_⟩
      · intro id d' h
        simp only [emit_trace, go_trace, List.mem_cons, emit_ids] at h ⊢
        rcases h with h | h
        · cases h; exact Nat.lt_succ_self _
        · exact lt (ih.fresh id d' h)
      · intro u g hg id hid
        rcases mem u g hg with h | rfl
        · exact lt (ih.freshF u g h id hid)
        · exact nomatch hid
      · intro id d' h
        simp only [emit_trace, go_trace, List.mem_cons, reduceCtorEq, false_or] at h
        exact lt (ih.freshS id d' h)
      · intro u id d' hg
        rcases mem u _ hg with h | h
        · exact lt (ih.freshC u id d' h)
        · cases h; exact Nat.lt_succ_self _
      · intro u g hg id hid
        rcases mem u g hg with h | rfl
        · exact (ih.past u g h id hid).cons (ne (ih.freshF u g h id hid))
        · exact nomatch hid
      · intro id d' h
        simp only [emit_trace, go_trace, List.mem_cons, reduceCtorEq, false_or] at h
        exact (ih.sent id d' h).cons (ne (ih.freshS id d' h))
    · have hsh := shape hrch t
      rw [hr] at hsh
      obtain ⟨-, h2⟩ := advance_shape hadv hr hsh
      obtain ⟨hids, ⟨es, hes, hes1, hes2⟩, hst⟩ := advance_late hadv hr
      have hback {id} (h : NotLate s.trace id) : NotLate s'.trace id := by
        rw [hes]; exact h.append fun e he d => hes1 e he id d
      have hfin : f ∈ s.stk t := by rw [hr]; simp
      have hrin {g} (h : g ∈ r ∨ g = f) : g ∈ s.stk t := by
        rw [hr]
        rcases h with h | h
        · exact List.mem_cons_of_mem _ h
        · rw [h]; simp
      have hpast : ∀ u g, g ∈ s'.stk u → ∀ id, g.pastId = some id → id < s.ids ∧ NotLate s'.trace id := by
        intro u g hg id hid
        by_cases hu : u = t
        · subst hu
          rcases hst g hg with h | ⟨-, h | h | ⟨⟨id', d', hf, hgid⟩, hrk, htr⟩⟩
          · exact ⟨ih.freshF _ _ (hrin h) _ hid, hback (ih.past _ _ (hrin h) _ hid)⟩
          · rw [h] at hid; exact nomatch hid
          · rw [h] at hid; exact ⟨ih.freshF _ _ hfin _ hid, hback (ih.past _ _ hfin _ hid)⟩
          · rw [hid] at hgid
            cases hgid
            refine ⟨ih.freshC _ _ d' (by rw [← hf]; exact hfin), ?_⟩
            rw [htr]
            refine notLate_of_no_shut (fun b hb => ?_) _
            have := shut_state hrch b hb
            omega
        · rw [h2 u hu] at hg
          exact ⟨ih.freshF u g hg id hid, hback (ih.past u g hg id hid)⟩
      refine ⟨?_, ?_, ?_, ?_, ?_, ?_⟩
      · intro id d h
        rw [hids]
        rw [hes] at h
        rcases List.mem_append.1 h with h | h
        · exact absurd rfl (hes1 _ h id d)
        · exact ih.fresh id d h
      · intro u g hg id hid
        rw [hids]; exact (hpast u g hg id hid).1
      · intro id d h
        rw [hids]
        rw [hes] at h
        rcases List.mem_append.1 h with h | h
        · exact ih.freshF t f hfin id (hes2 id d h)
        · exact ih.freshS id d h
      · intro u id d hg
        rw [hids]
        by_cases hu : u = t
        · subst hu
          rcases hst _ hg with h | ⟨h, -⟩
          · exact ih.freshC _ _ _ (hrin h)
          · exact absurd rfl (h id d)
        · rw [h2 u hu] at hg; exact ih.freshC u id d hg
      · intro u g hg id hid
        exact (hpast u g hg id hid).2
      · intro id d h
        rw [hes] at h
        rcases List.mem_append.1 h with h | h
        · exact hback (ih.past t f hfin id (hes2 id d h))
        · exact hback (ih.sent id d h)
    · exact ⟨ih.fresh, ih.freshF, ih.freshS, ih.freshC, ih.past, ih.sent⟩
    · have mem : ∀ u g, g ∈ (s.go 0 [.net_lock fl n]).stk u → g ∈ s.stk u ∨ g = .net_lock fl n := by
        intro u g hg
        by_cases hu : u = 0
        · subst hu
          simp only [go_stk, if_true, List.mem_singleton] at hg
          exact .inr hg
        · simp only [go_stk, hu, if_false] at hg; exact .inl hg
      refine ⟨ih.fresh, ?_, ih.freshS, ?_, ?_, ih.sent⟩
      · intro u g hg id hid
        rcases mem u g hg with h | rfl
        · exact ih.freshF u g h id hid
        · exact nomatch hid
      · intro u id d hg
        rcases mem u _ hg with h | h
        · exact ih.freshC u id d h
        · exact nomatch h
      · intro u g hg id hid
        rcases mem u g hg with h | rfl
        · exact ih.past u g h id hid
        · exact nomatch hid

/-! ### Graceful shutdown -/

/-- Where the kernel is told of a graceful shutdown, everything has been sent. -/
def Drained (tr : List Ev) : Prop := ∀ a b, tr = a ++ Ev.shutdown true :: b → Aborted b ∨ kernelBytes b = acceptedBytes b

theorem Drained.append {es tr : List Ev} (h : Drained tr) (he : Ev.shutdown true ∉ es) : Drained (es ++ tr) := by
  induction es with
  | nil => exact h
  | cons e es ih =>
    intro a b heq
    cases a with
    | nil => cases heq; exact absurd (by simp) he
    | cons y a => exact ih (fun h => he (List.mem_cons_of_mem _ h)) a b (List.cons.inj heq).2

def Frame.ready : Frame → Bool
  | .quick true | .wr_closing | .wr_closing_x | .wr_eof => true
  | _ => false

theorem advance_wq {ssl s t f r o s'} (h : advance ssl s t f r o = some s') : s'.wq = s.wq ∨ f.locked = true := by
  adv h f <;> first | exact .inl rfl | exact .inr rfl

theorem not_ready_under {t f r g r'} (h : Shape t (f :: r)) (hg : r = g :: r') : g.ready = false := by
  have := under_of_shape h (g := g) (by rw [hg]; simp)
  cases g <;> simp_all [Frame.under, Frame.ready]

theorem advance_ready {ssl s t f r o s'} (h : advance ssl s t f r o = some s') (hr : s.stk t = f :: r) (hsh : Shape t (f :: r))
    (hi : f.ready = true → s.wq = [] ∧ holds s t = true) :
    ∀ g r', s'.stk t = g :: r' → g.ready = true → s'.wq = [] ∧ holds s' t = true := by
  have hu := fun g r' (hg : r = g :: r') => not_ready_under hsh hg
  intro g r' hg hgr
  adv h f <;> simp only [emit_stk, go_stk, if_true, hr] at hg <;>
    first
    | (exact absurd (hu _ _ hg) (by simp [hgr]))
    | (obtain ⟨rfl, -⟩ := List.cons.inj hg; cases hgr; done)
    | (obtain ⟨rfl, -⟩ := List.cons.inj hg; simp only [emit_wq, go_wq]; exact ⟨by first | assumption | exact (hi rfl).1, by simp [holds, Frame.locked]⟩)
    | (split at hg <;> first | (exact absurd (hu _ _ hg) (by simp [hgr])) | (obtain ⟨rfl, -⟩ := List.cons.inj hg; cases hgr; done) | (obtain ⟨rfl, -⟩ := List.cons.inj hg; simp only [emit_wq, go_wq]; exact ⟨(hi rfl).1, by simp_all [holds, Frame.locked]⟩))
    | skip

theorem ready {ssl s} (h : Reachable ssl s) : ∀ t f r, s.stk t = f :: r → f.ready = true → s.wq = [] ∧ holds s t = true := by
  induction h with
  | init => intro t f r h; exact nomatch h
  | @step s s' a hrch hs ih =>
    rcases step_cases hs with ⟨t, f, rfl, hm, hf⟩ | ⟨t, d, rfl, hm⟩ | ⟨t, f, r, o, hr, hw, hadv⟩ | ⟨fl, -, -, -, rfl⟩ | ⟨fl, n, h0, -, rfl⟩
    · intro u g r hg hgr
      by_cases hu : u = t
      · subst hu
        simp only [go_stk, if_true] at hg
        cases hg
        rcases hf with rfl | rfl <;> exact nomatch hgr
      · simp only [holds, go_stk, hu, if_false] at hg ⊢
        exact ih u g r hg hgr
    · intro u g r hg hgr
      by_cases hu : u = t
      · subst hu
        simp only [emit_stk, go_stk, if_true] at hg
        cases hg
        exact nomatch hgr
      · simp only [holds, emit_stk, go_stk, hu, if_false] at hg ⊢
        exact ih u g r hg hgr
    · have hsh := shape hrch t
      rw [hr] at hsh
      obtain ⟨-, h2⟩ := advance_shape hadv hr hsh
      intro u g r' hg hgr
      by_cases hu : u = t
      · subst hu
        exact advance_ready hadv hr hsh (ih u f r hr) g r' hg hgr
      · rw [h2 u hu] at hg
        obtain ⟨i1, i2⟩ := ih u g r' hg hgr
        have : holds s' u = true := by unfold holds; rw [h2 u hu]; exact i2
        refine ⟨?_, this⟩
        rcases advance_wq hadv with h | h
        · rw [h]; exact i1
        · exact absurd ((mutex hrch).2.2 u t i2 (by unfold holds; rw [hr]; simp [h])) hu
    · exact ih
    · intro u g r hg hgr
      by_cases hu : u = 0
      · subst hu
        simp only [go_stk, if_true] at hg
        cases hg
        exact nomatch hgr
      · simp only [holds, go_stk, hu, if_false] at hg ⊢
        exact ih u g r hg hgr

theorem advance_drained {ssl s t f r o s'} (h : advance ssl s t f r o = some s') :
    (∃ es, s'.trace = es ++ s.trace ∧ Ev.shutdown true ∉ es) ∨
    (f.ready = true ∧ ∃ es, s'.trace = Ev.shutdown true :: (es ++ s.trace) ∧ Ev.shutdown true ∉ es ∧ kernelBytes (es ++ s.trace) = kernelBytes s.trace ∧
      acceptedBytes (es ++ s.trace) = acceptedBytes s.trace) := by
  cases f with
  | quick g =>
    cases h
    cases g
    · exact .inl ⟨[_], rfl, by simp⟩
    · exact .inr ⟨rfl, [], rfl, by simp, rfl, rfl⟩
  | wr_eof =>
    simp only [advance] at h
    split at h <;> cases h
    · exact .inr ⟨rfl, [.notify], rfl, by simp, rfl, rfl⟩
    · exact .inr ⟨rfl, [], rfl, by simp, rfl, rfl⟩
  | _ =>
    left
    simp only [advance] at h
    (repeat' split at h) <;> cases h <;>
      first | exact ⟨[], rfl, by simp⟩ | exact ⟨[_], rfl, by simp⟩ | exact ⟨[_, _], rfl, by simp⟩ | (split <;> exact ⟨[_], rfl, by simp⟩)

theorem drained {ssl s} (h : Reachable ssl s) : Drained s.trace := by
  induction h with
  | init => intro a b h; simp at h
  | @step s s' a hrch hs ih =>
    rcases step_cases hs with ⟨t, f, rfl, hm, hf⟩ | ⟨t, d, rfl, hm⟩ | ⟨t, f, r, o, hr, hw, hadv⟩ | ⟨fl, -, -, -, rfl⟩ | ⟨fl, n, h0, -, rfl⟩
    · exact ih
    · exact ih.append (es := [_]) (by simp)
    · rcases advance_drained hadv with ⟨es, he, hn⟩ | ⟨hf, es, he, hn, hk, ha⟩
      · rw [he]; exact ih.append hn
      · rw [he]
        have ih' := ih.append hn
        intro a b heq
        cases a with
        | nil =>
          have hb : es ++ s.trace = b := (List.cons.inj heq).2
          rw [← hb]
          obtain ⟨hq, hh⟩ := ready hrch t f r hr hf
          by_cases hab : Aborted s.trace
          · exact .inl (aborted_append hab)
          · right
            have hsh := shape hrch t
            rw [hr] at hsh
            have hns : ∀ d w, ¬ Sending s d w := by
              rintro d w ⟨u, id, hm⟩
              have hu : holds s u = true := List.any_eq_true.2 ⟨_, hm, rfl⟩
              have := (mutex hrch).2.2 u t hu hh
              subst this
              rw [hr] at hm
              rcases List.mem_cons.1 hm with hm | hm
              · subst hm; exact nomatch hf
              · exact nomatch (under_of_shape hsh hm)
            have := (output hrch hab).idle hns
            rw [hq, List.append_nil] at this
            rw [hk, ha, this]
        | cons y a => exact ih' a b (List.cons.inj heq).2
    · exact ih
    · exact ih

end Verif.Socket
