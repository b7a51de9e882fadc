import Verif.Proofs.Socket
namespace Verif.Socket

/-! ### The state only moves forward -/

theorem advance_mono {ssl s t f r o s'} (h : advance ssl s t f r o = some s') : s.state.rank ≤ s'.state.rank := by
  have hle : ∀ x : State, x.rank ≤ 3 := by intro x; cases x <;> decide
  adv h f <;> simp_all [State.rank] <;> first | omega | exact hle _ | skip

theorem step_mono {ssl s a s'} (h : step ssl s a = some s') : s.state.rank ≤ s'.state.rank := by
  rcases step_cases h with ⟨t, f, rfl, hm, hf⟩ | ⟨t, d, rfl, hm⟩ | ⟨t, f, r, o, hr, hw, hadv⟩ | ⟨fl, -, -, -, rfl⟩ | ⟨fl, n, h0, -, rfl⟩
  · exact Nat.le_refl _
  · exact Nat.le_refl _
  · exact advance_mono hadv
  · exact Nat.le_refl _
  · exact Nat.le_refl _

/-! ### Output -/

/-- A call of `tcp_send` is in its loop, with `w` left to send out of `d`. -/
def Sending (s : Sys) (d w : Bytes) : Prop := ∃ t id, Frame.send_loop id d w ∈ s.stk t

structure Output (s : Sys) : Prop where
  sending : ∀ d w, Sending s d w → s.wq = [] ∧ ∃ p, d = p ++ w ∧ kernelBytes s.trace = acceptedBytes s.trace ++ p
  idle : (∀ d w, ¬ Sending s d w) → kernelBytes s.trace ++ s.wq = acceptedBytes s.trace

/-- Transitions that have nothing to do with output. -/
theorem Output.congr {s s' : Sys} (h : Output s) (hq : s'.wq = s.wq) (hk : kernelBytes s'.trace = kernelBytes s.trace)
    (ha : acceptedBytes s'.trace = acceptedBytes s.trace) (hs : ∀ d w, Sending s' d w ↔ Sending s d w) : Output s' := by
  constructor
  · intro d w hd
    rw [hq, hk, ha]
    exact h.sending d w ((hs d w).1 hd)
  · intro hn
    rw [hq, hk, ha]
    exact h.idle fun d w hd => hn d w ((hs d w).2 hd)

theorem sending_congr {s s' : Sys} {t : Nat} (h1 : ∀ u, u ≠ t → s'.stk u = s.stk u)
    (h2 : ∀ id d w, Frame.send_loop id d w ∈ s'.stk t ↔ Frame.send_loop id d w ∈ s.stk t) (d w : Bytes) : Sending s' d w ↔ Sending s d w := by
  constructor
  · rintro ⟨u, id, h⟩
    by_cases hu : u = t
    · subst hu; exact ⟨u, id, (h2 _ _ _).1 h⟩
    · exact ⟨u, id, by rw [← h1 u hu]; exact h⟩
  · rintro ⟨u, id, h⟩
    by_cases hu : u = t
    · subst hu; exact ⟨u, id, (h2 _ _ _).2 h⟩
    · exact ⟨u, id, by rw [h1 u hu]; exact h⟩

theorem not_sending {s : Sys} {t : Nat} {f : Frame} {r : List Frame} (hmu : ∀ t u, holds s t = true → holds s u = true → t = u)
    (hsh : Shape t (f :: r)) (hr : s.stk t = f :: r) (hl : f.locked = true) (hf : ∀ id d w, f ≠ .send_loop id d w) (d w : Bytes) : ¬ Sending s d w := by
  rintro ⟨u, id, h⟩
  have hu : holds s u = true := List.any_eq_true.2 ⟨_, h, rfl⟩
  have ht : holds s t = true := by unfold holds; rw [hr]; simp [hl]
  have := hmu u t hu ht
  subst this
  rw [hr] at h
  rcases List.mem_cons.1 h with h | h
  · exact hf _ _ _ h.symm
  · exact nomatch (under_of_shape hsh h)

theorem sending_only {s : Sys} {t id : Nat} {d w : Bytes} {r : List Frame} (hmu : ∀ t u, holds s t = true → holds s u = true → t = u)
    (hsh : Shape t (.send_loop id d w :: r)) (hr : s.stk t = .send_loop id d w :: r) :
    ∀ u id', ∀ d' w', Frame.send_loop id' d' w' ∈ s.stk u → u = t ∧ id' = id ∧ d' = d ∧ w' = w := by
  intro u id' d' w' h
  have hu : holds s u = true := List.any_eq_true.2 ⟨_, h, rfl⟩
  have ht : holds s t = true := by unfold holds; rw [hr]; rfl
  have := hmu u t hu ht
  subst this
  rw [hr] at h
  rcases List.mem_cons.1 h with h | h
  · cases h; exact ⟨rfl, rfl, rfl, rfl⟩
  · exact nomatch (under_of_shape hsh h)

theorem no_loop_below {t f r id d w} (hsh : Shape t (f :: r)) : Frame.send_loop id d w ∉ r := fun h => nomatch (under_of_shape hsh h)

theorem advance_output {ssl s t f r o s'} (h : advance ssl s t f r o = some s') (hr : s.stk t = f :: r) (hsh : Shape t (f :: r))
    (hmu : ∀ t u, holds s t = true → holds s u = true → t = u) (hna : ¬ Aborted s'.trace) (hi : Output s) : Output s' := by
  have hshape := advance_shape h hr hsh
  have hb : ∀ id d w, Frame.send_loop id d w ∉ r := fun _ _ _ => no_loop_below hsh
  cases f with
  | send_top id d =>
    have hns := not_sending hmu hsh hr rfl (by simp)
    have hk := hi.idle hns
    simp only [advance] at h
    split at h
    · rename_i hc
      cases h
      constructor
      · rintro d' w' ⟨u, id', hm⟩
        have : u = t ∧ d' = d ∧ w' = d := by
          by_cases hu : u = t
          · subst hu
            simp only [go_stk, if_true, List.mem_cons] at hm
            rcases hm with hm | hm
            · cases hm; exact ⟨rfl, rfl, rfl⟩
            · exact absurd hm (hb _ _ _)
          · simp only [go_stk, hu, if_false] at hm
            exact absurd ⟨u, id', hm⟩ (hns d' w')
        obtain ⟨-, rfl, rfl⟩ := this
        refine ⟨hc.1, [], rfl, ?_⟩
        simpa [hc.1] using hk
      · intro hn
        exact absurd ⟨t, id, by simp⟩ (hn d d)
    · cases h
      constructor
      · rintro d' w' ⟨u, id', hm⟩
        by_cases hu : u = t
        · subst hu
          simp only [emit_stk, go_stk, if_true] at hm
          exact absurd hm (hb _ _ _)
        · simp only [emit_stk, go_stk, hu, if_false] at hm
          exact absurd ⟨u, id', hm⟩ (hns d' w')
      · intro _
        simp only [emit_trace, emit_wq, kernelBytes, acceptedBytes, go_trace]
        rw [← List.append_assoc, hk]
  | send_loop id d w =>
    have honly := sending_only hmu hsh hr
    obtain ⟨hq, p, hp, hk⟩ := hi.sending d w ⟨t, id, by rw [hr]; simp⟩
    have gone : ∀ d' w', ¬ (∃ u id', Frame.send_loop id' d' w' ∈ (if u = t then r else s.stk u)) := by
      rintro d' w' ⟨u, id', hm⟩
      by_cases hu : u = t
      · subst hu; simp only [if_true] at hm; exact hb _ _ _ hm
      · simp only [hu, if_false] at hm; exact hu (honly _ _ _ _ hm).1
    simp only [advance] at h
    split at h
    · rename_i hw
      cases h
      constructor
      · rintro d' w' ⟨u, id', hm⟩
        exact absurd ⟨u, id', hm⟩ (gone d' w')
      · intro _
        simp only [emit_trace, emit_wq, kernelBytes, acceptedBytes, go_trace, go_wq]
        rw [hq, hk, hp, hw]; simp
    · split at h
      · rename_i k
        split at h
        · rename_i hkl
          cases h
          constructor
          · rintro d' w' ⟨u, id', hm⟩
            have : d' = d ∧ w' = w.drop k := by
              by_cases hu : u = t
              · subst hu
                simp only [emit_stk, go_stk, if_true, List.mem_cons] at hm
                rcases hm with hm | hm
                · cases hm; exact ⟨rfl, rfl⟩
                · exact absurd hm (hb _ _ _)
              · simp only [emit_stk, go_stk, hu, if_false] at hm
                exact absurd (honly _ _ _ _ hm).1 hu
            obtain ⟨rfl, rfl⟩ := this
            refine ⟨hq, p ++ w.take k, ?_, ?_⟩
            · rw [List.append_assoc, List.take_append_drop]; exact hp
            · simp only [emit_trace, kernelBytes, acceptedBytes, go_trace]
              rw [hk, List.append_assoc]
          · intro hn
            exact absurd ⟨t, id, by simp⟩ (hn d (w.drop k))
        · exact nomatch h
      · cases h
        constructor
        · rintro d' w' ⟨u, id', hm⟩
          exact absurd ⟨u, id', hm⟩ (gone d' w')
        · intro _
          simp only [emit_trace, emit_wq, kernelBytes, acceptedBytes, go_trace]
          rw [hq, hk, hp]; simp
      · cases h
        exact absurd (.inl (by simp)) hna
      · exact nomatch h
  | wr_loop =>
    have hns := not_sending hmu hsh hr rfl (by simp)
    have hk := hi.idle hns
    have hsc : ∀ {s'' : Sys} (fs : List Frame), (∀ id d w, Frame.send_loop id d w ∉ fs) → s''.stk = (s.go t fs).stk → ∀ d w, ¬ Sending s'' d w := by
      rintro s'' fs hfs hst d' w' ⟨u, id', hm⟩
      rw [hst] at hm
      by_cases hu : u = t
      · subst hu; simp only [go_stk, if_true] at hm; exact hfs _ _ _ hm
      · simp only [go_stk, hu, if_false] at hm; exact hns d' w' ⟨u, id', hm⟩
    simp only [advance] at h
    split at h
    · cases h
      exact ⟨fun d' w' hs' => absurd hs' (hsc _ (by simpa using hb) rfl d' w'), fun _ => hk⟩
    · split at h
      · split at h
        · cases h
          refine ⟨fun d' w' hs' => absurd hs' (hsc (.wr_loop :: r) (by simpa using hb) rfl d' w'), fun _ => ?_⟩
          simp only [emit_trace, emit_wq, kernelBytes, acceptedBytes, go_trace]
          rw [List.append_assoc, List.take_append_drop, hk]
        · exact nomatch h
      · cases h
        exact ⟨fun d' w' hs' => absurd hs' (hsc _ hb rfl d' w'), fun _ => hk⟩
      · cases h
        exact absurd (.inl (by simp)) hna
      · exact nomatch h
  | _ =>
    refine Output.congr hi ?_ ?_ ?_ (sending_congr hshape.2 ?_)
    all_goals
      simp only [advance] at h
      (repeat' split at h) <;> cases h <;> simp_all [kernelBytes, acceptedBytes] <;> (try split) <;> simp_all [kernelBytes, acceptedBytes]

theorem not_aborted_mono {e : Ev} {tr : List Ev} (h : ¬ Aborted (e :: tr)) : ¬ Aborted tr := fun hn => h (by
  rcases hn with h | h
  · exact .inl (List.mem_cons_of_mem _ h)
  · exact .inr (List.mem_cons_of_mem _ h))

/-- Events are only added. -/
theorem advance_trace {ssl s t f r o s'} (h : advance ssl s t f r o = some s') : ∃ es, s'.trace = es ++ s.trace := by
  adv h f <;> simp only [emit_trace, go_trace] <;>
    first | exact ⟨[], rfl⟩ | exact ⟨[_], rfl⟩ | exact ⟨[_, _], rfl⟩ | (split <;> exact ⟨[_], rfl⟩)

theorem aborted_append {es tr : List Ev} (h : Aborted tr) : Aborted (es ++ tr) := by
  rcases h with h | h
  · exact .inl (List.mem_append_right _ h)
  · exact .inr (List.mem_append_right _ h)

theorem output {ssl s} (h : Reachable ssl s) (hna : ¬ Aborted s.trace) : Output s := by
  induction h with
  | init => exact ⟨fun d w ⟨t, id, h⟩ => (nomatch h), fun _ => rfl⟩
  | @step s s' a hrch hs ih =>
    rcases step_cases hs with ⟨t, f, rfl, hm, hf⟩ | ⟨t, d, rfl, hm⟩ | ⟨t, f, r, o, hr, hw, hadv⟩ | ⟨fl, -, -, -, rfl⟩ | ⟨fl, n, h0, -, rfl⟩
    · refine (ih hna).congr rfl rfl rfl (sending_congr (t := t) (fun u hu => by simp [hu]) ?_)
      intro id d w
      rcases hf with rfl | rfl <;> simp
    · refine (ih (not_aborted_mono hna)).congr rfl rfl rfl (sending_congr (t := t) (fun u hu => by simp [hu]) ?_)
      intro id d w
      simp
    · have hsh := shape hrch t
      rw [hr] at hsh
      obtain ⟨es, he⟩ := advance_trace hadv
      exact advance_output hadv hr hsh (mutex hrch).2.2 hna (ih fun h => hna (by rw [he]; exact aborted_append h))
    · exact (ih hna).congr rfl rfl rfl (fun _ _ => Iff.rfl)
    · refine (ih hna).congr rfl rfl rfl (sending_congr (t := 0) (fun u hu => by simp [hu]) ?_)
      intro id d w
      simp [h0]

end Verif.Socket
