import Verif.Props.SocketLive
/-!
# C130: data that have been accepted are given to the kernel, and sockets that are shut down are closed
-/
namespace Verif.Props
open Verif.Socket Verif.Live

theorem sl_kernel_append (es tr : List Ev) : kernelBytes (es ++ tr) = kernelBytes tr ++ kernelBytes es := by
  induction es with
  | nil => simp [kernelBytes]
  | cons e es ih => cases e <;> simp [kernelBytes, ih]

theorem sl_accepted_append (es tr : List Ev) : acceptedBytes (es ++ tr) = acceptedBytes tr ++ acceptedBytes es := by
  induction es with
  | nil => simp [acceptedBytes]
  | cons e es ih => cases e <;> simp [acceptedBytes, ih]

/-- All results of a transition are put in the place of the innermost frame. -/
theorem sl_suffix {ssl s t f r o s'} (h : advance ssl s t f r o = some s') (hs : s.stk t = f :: r) : ∃ x, s'.stk t = x ++ r := by
  adv h f
  all_goals simp only [emit_stk, go_stk, if_true]
  all_goals first
    | exact ⟨[], rfl⟩
    | exact ⟨[_], rfl⟩
    | exact ⟨[_, _], rfl⟩
    | (rw [hs]; exact ⟨[_], rfl⟩)
    | (split <;> first | exact ⟨[], rfl⟩ | exact ⟨[_], rfl⟩ | exact ⟨[_, _], rfl⟩)
    | skip

theorem advance_registered {ssl s t f r o s'} (h : advance ssl s t f r o = some s') (hs : s.stk t = f :: r)
    (hi : s.registered = false ∨ (∃ n, Frame.net_fin true n ∈ s.stk t) → Ev.on_closed ∈ s.trace) : s'.registered = false ∨ (∃ n, Frame.net_fin true n ∈ s'.stk t) → Ev.on_closed ∈ s'.trace := by
  rw [hs] at hi
  adv h f <;> simp_all
  all_goals first
    | (split <;> simp_all; done)
    | skip

/-- The socket is registered until it has been closed. -/
theorem sl_registered {ssl s} (hr : Reachable ssl s) (hc : Ev.on_closed ∉ s.trace) : s.registered = true := by
  suffices s.registered = false ∨ (∃ t n, Frame.net_fin true n ∈ s.stk t) → Ev.on_closed ∈ s.trace by
    cases h : s.registered with
    | true => rfl
    | false => exact absurd (this (.inl h)) hc
  clear hc
  induction hr with
  | init => rintro (h | ⟨t, n, h⟩) <;> cases h
  | @step s s' a hrch hs ih =>
    rcases step_cases hs with ⟨t, f, rfl, hm, hf⟩ | ⟨t, d', rfl, hm⟩ | ⟨t, f, r, o, hr, hw, hadv⟩ | ⟨fl, -, -, -, rfl⟩ | ⟨fl, n, h0, -, rfl⟩
    · rintro (h | ⟨u, n, h⟩)
      · exact ih (.inl h)
      · refine ih (.inr ⟨u, n, ?_⟩)
        simp only [go_stk] at h
        split at h
        · rename_i hu; subst hu
          rcases List.mem_cons.1 h with h | h
          · rcases hf with rfl | rfl <;> cases h
          · exact h
        · exact h
    · rintro (h | ⟨u, n, h⟩)
      · exact List.mem_cons_of_mem _ (ih (.inl h))
      · refine List.mem_cons_of_mem _ (ih (.inr ⟨u, n, ?_⟩))
        simp only [emit_stk, go_stk] at h
        split at h
        · rename_i hu; subst hu
          rcases List.mem_cons.1 h with h | h
          · cases h
          · exact h
        · exact h
    · have key := advance_registered hadv hr (fun h => ih (h.imp id fun ⟨n, h⟩ => ⟨t, n, h⟩))
      rintro (h | ⟨u, n, h⟩)
      · exact key (.inl h)
      · by_cases hu : u = t
        · subst hu; exact key (.inr ⟨n, h⟩)
        · have hsh := shape hrch t
          rw [hr] at hsh
          rw [(advance_shape hadv hr hsh).2 u hu] at h
          obtain ⟨es, he⟩ := advance_trace hadv
          rw [he]
          exact List.mem_append_right _ (ih (.inr ⟨u, n, h⟩))
    · exact ih
    · rintro (h | ⟨u, n', h⟩)
      · exact ih (.inl h)
      · refine ih (.inr ⟨u, n', ?_⟩)
        simp only [go_stk] at h
        split at h
        · rcases List.mem_cons.1 h with h | h <;> cases h
        · exact h

theorem sl_grows {ssl s k s'} (h : step ssl s (.run 0 (.io (k + 1))) = some s') (hs : Sends s) : (kernelBytes s.trace).length < (kernelBytes s'.trace).length := by
  obtain ⟨hq, r, hs⟩ := hs
  simp only [step, hs, Frame.waits, Bool.false_and, Bool.false_eq_true, if_false, advance, if_neg hq] at h
  split at h
  · rename_i hk
    cases h
    simp only [emit_trace, go_trace, kernelBytes, List.length_append, List.length_take]
    omega
  · cases h

/-- The network thread is going to send what is queued, unless the connection is abandoned. -/
def sl_way (fl : Flags) (lim : Nat) (st : List Frame) : Prop :=
  st = [.net_lock fl lim] ∨ st = [.net_top fl lim] ∨ st = [.wr_top, .net_in fl lim] ∨ st = [.wr_top_x, .net_in fl lim] ∨
    (∃ pre, st = pre ++ [.cb_connected, .net_in fl lim]) ∨ st = [.quick false, .leave, .net_in fl lim]

theorem sl_way_ne {fl lim st} (h : sl_way fl lim st) : st ≠ [] := by
  rcases h with rfl | rfl | rfl | rfl | ⟨pre, rfl⟩ | rfl <;> simp

theorem sl_way_adv {ssl s t f r o s' fl lim} (h : advance ssl s t f r o = some s') (hs : s.stk t = f :: r) (hw : sl_way fl lim (f :: r)) (ho : fl.out = true)
    (ha : ¬ Aborted s'.trace) : sl_way fl lim (s'.stk t) ∨ s'.stk t = [.wr_loop, .net_in fl lim] ∨ Ev.on_closed ∈ s'.trace := by
  rcases hw with hw | hw | hw | hw | ⟨pre, hw⟩ | hw
  · cases hw
    cases h
    left; right; left; simp
  · cases hw
    simp only [advance, ho] at h
    split at h <;> cases h
    · right; right; simp
    · left; right; right; left; simp
  · cases hw
    cases h
    simp only [go_stk, if_true]
    split
    · left; right; right; right; left; rfl
    · right; left; rfl
  · cases hw
    simp only [advance] at h
    split at h <;> cases h
    · left; right; right; right; right; left
      exact ⟨[], by simp⟩
    · right; left; simp
  · cases pre with
    | nil =>
      cases hw
      simp only [advance] at h
      split at h <;> cases h
      · right; left; simp
      · left; right; right; right; right; right; simp
    | cons g pre =>
      cases hw
      obtain ⟨x, hx⟩ := sl_suffix h hs
      left; right; right; right; right; left
      exact ⟨x ++ pre, by rw [hx, List.append_assoc]; rfl⟩
  · cases hw
    cases h
    exact absurd (.inr (by simp)) ha

/-- A step that the network thread does not do leaves its stack alone, unless it is idle or in a callback. -/
theorem sl_way_step {ssl s a s' fl lim} (hr : Reachable ssl s) (h : step ssl s a = some s') (hw : sl_way fl lim (s.stk 0)) (ho : fl.out = true)
    (ha : ¬ Aborted s'.trace) : sl_way fl lim (s'.stk 0) ∨ s'.stk 0 = [.wr_loop, .net_in fl lim] ∨ Ev.on_closed ∈ s'.trace := by
  rcases sl_next hr h 0 with ⟨o, f, r, rfl, hs, -, hadv⟩ | ⟨c, rfl⟩ | ⟨-, hs, -⟩ | ⟨hs, -⟩
  · rw [hs] at hw
    exact sl_way_adv hadv hs hw ho ha
  · left
    unfold step at h
    dsimp only at h
    split at h
    · rename_i hs; exact absurd hs (sl_way_ne hw)
    · rename_i f r hs
      split at h
      · rename_i hcb
        rw [hs] at hw
        have : ∃ pre, f :: r = pre ++ [.cb_connected, .net_in fl lim] := by
          rcases hw with hw | hw | hw | hw | hw | hw
          · cases hw; cases hcb
          · cases hw; cases hcb
          · cases hw; cases hcb
          · cases hw; cases hcb
          · exact hw
          · cases hw; cases hcb
        obtain ⟨pre, hp⟩ := this
        right; right; right; right; left
        cases c <;> cases h <;> simp only [emit_stk, go_stk, if_true] <;> exact ⟨_ :: pre, by rw [hp]; rfl⟩
      · cases h
  · exact absurd hs (sl_way_ne hw)
  · rw [hs]; exact .inl hw

section
variable {ssl : Bool} {e : Exec (step ssl)}

theorem sl_trace_mono (e : Exec (step ssl)) {n m : Nat} (hm : n ≤ m) : ∃ es, (e.st m).trace = es ++ (e.st n).trace :=
  e.always (P := fun s => ∃ es, s.trace = es ++ (e.st n).trace) n ⟨[], rfl⟩ (fun s a s' ⟨es, he⟩ h => by
    obtain ⟨es', he'⟩ := step_trace h
    exact ⟨es' ++ es, by rw [he', he, List.append_assoc]⟩) m hm

/-- An event is taken out of the buffer. -/
theorem sl_take (h : Live e) {m1 : Nat} {fl : Flags} (hp : (e.st m1).event = some fl ∧ (e.st m1).stk 0 = []) : ∃ m2 lim, m1 ≤ m2 ∧ (e.st m2).stk 0 = [.net_lock fl lim] := by
  obtain ⟨m2, hm2, lim, hq⟩ := e.leads_once (P := fun j => (e.st j).event = some fl ∧ (e.st j).stk 0 = []) (Q := fun j => ∃ lim, (e.st j).stk 0 = [.net_lock fl lim])
    h.takes (fun j hj => by
      rcases e.next j with ⟨-, hs⟩ | ⟨a, ha, hs⟩
      · rw [hs]; exact .inl hj
      · rcases sl_next (sl_reach h j) hs 0 with ⟨o, f, r, -, hs0, -⟩ | ⟨c, rfl⟩ | ⟨-, -, n, fl', -, hev, hs0⟩ | ⟨hs0, -⟩
        · rw [hj.2] at hs0; cases hs0
        · simp [step, hj.2] at hs
        · rw [hj.1] at hev; cases hev; exact .inr ⟨n, hs0⟩
        · left
          refine ⟨?_, by rw [hs0]; exact hj.2⟩
          rcases step_cases hs with ⟨t, f, hq, hm, hf⟩ | ⟨t, d, hq, hm⟩ | ⟨t, f, r, o, hr, hw, hadv⟩ | ⟨fl', -, hev, -, hq⟩ | ⟨fl', n, h0, hev, hq⟩
          · rw [hq]; exact hj.1
          · rw [hq]; exact hj.1
          · have hsh := shape (sl_reach h j) t
            rw [hr] at hsh
            rw [(advance_closed hadv hr hsh).1]; exact hj.1
          · rw [hj.1] at hev; cases hev
          · rw [hq] at hs0; simp [hj.2] at hs0)
    (fun j hj => ⟨j, Nat.le_refl _, .take 0, ⟨0, rfl⟩, by simp [step, (hj j (Nat.le_refl _)).1, (hj j (Nat.le_refl _)).2]⟩)
    (fun j hj ht => by
      obtain ⟨a, ha, n, rfl⟩ := ht
      rcases e.next j with ⟨ha', -⟩ | ⟨a', ha', hs⟩
      · rw [ha] at ha'; cases ha'
      · rw [ha] at ha'; cases ha'
        simp only [step, hj.1, hj.2, if_true] at hs
        rw [← Option.some.inj hs]
        exact ⟨n, by simp⟩) m1 hp
  exact ⟨m2, lim, hm2, hq⟩

/-- An event that has been reported is taken out of the buffer. -/
theorem sl_taken (h : Live e) {m1 : Nat} {fl : Flags} (hact : e.act m1 = some (.poll fl)) : ∃ m2 lim, m1 < m2 ∧ (e.st m2).stk 0 = [.net_lock fl lim] ∧ ∃ es, (e.st m2).trace = es ++ (e.st m1).trace := by
  have hp : (e.st (m1 + 1)).event = some fl ∧ (e.st (m1 + 1)).stk 0 = [] := by
    rcases e.next m1 with ⟨ha, -⟩ | ⟨a, ha, hs⟩
    · rw [hact] at ha; cases ha
    · rw [hact] at ha; cases ha
      simp only [step] at hs
      split at hs
      · rename_i hc; rw [← Option.some.inj hs]; exact ⟨rfl, hc.1⟩
      · cases hs
  obtain ⟨m2, lim, hm2, hq⟩ := sl_take h hp
  exact ⟨m2, lim, by omega, hq, sl_trace_mono e (by omega)⟩

end

/-! ### Events -/

/-- How far the network thread has come with the events `fl`. -/
def sl_stage (fl : Flags) (es : List Ev) : Frame → Prop
  | .net_lock fl' _ | .net_top fl' _ => fl' = fl
  | .net_in fl' _ => fl' = fl ∧ fl.err = false ∧ (fl.out = true → .on_writeable ∈ es)
  | .net_hup fl' _ => fl' = fl ∧ fl.err = false ∧ (fl.out = true → .on_writeable ∈ es) ∧ (fl.in_ = true → .on_readable ∈ es)
  | .net_fin _ _ => Handled fl es
  | _ => False

def sl_prog (fl : Flags) (es : List Ev) (st : List Frame) : Prop := (st = [] ∧ Handled fl es) ∨ ∃ pre g, st = pre ++ [g] ∧ sl_stage fl es g

theorem sl_stage_mono {fl es es' g} (h : sl_stage fl es g) : sl_stage fl (es' ++ es) g := by
  cases g <;> simp_all [sl_stage, Handled]
  split at h
  · rename_i he; rw [if_pos he]; exact .inr h
  · rename_i he; rw [if_neg he]; exact ⟨fun x => .inr (h.1 x), fun x => .inr (h.2.1 x), fun x => .inr (h.2.2 x)⟩

theorem sl_prog_adv {ssl s t f r o s' fl es tr} (h : advance ssl s t f r o = some s') (hs : s.stk t = f :: r) (ht : s.trace = es ++ tr) (hp : sl_prog fl es (f :: r)) :
    ∃ es', s'.trace = es' ++ tr ∧ sl_prog fl es' (s'.stk t) := by
  rcases hp with ⟨hp, -⟩ | ⟨pre, g, hp, hg⟩
  · cases hp
  · cases pre with
    | nil =>
      cases hp
      cases f with
      | net_lock fl' n =>
        cases h
        exact ⟨es, ht, .inr ⟨[], .net_top fl' n, by simp, hg⟩⟩
      | net_top fl' n =>
        cases hg
        simp only [advance] at h
        split at h
        · rename_i he
          cases h
          exact ⟨.on_closed :: es, by simp [ht], .inr ⟨[.cb_closed], .net_fin true n, by simp, by simp [sl_stage, Handled, he]⟩⟩
        · rename_i he
          split at h
          · cases h
            exact ⟨.on_writeable :: es, by simp [ht], .inr ⟨[.wr_top], _, by simp; rfl, by simp [sl_stage, he]⟩⟩
          · cases h
            exact ⟨es, ht, .inr ⟨[], _, by simp; rfl, by simp_all [sl_stage]⟩⟩
      | net_in fl' n =>
        obtain ⟨rfl, he, ho⟩ := hg
        simp only [advance] at h
        split at h
        · cases h
          exact ⟨.on_readable :: es, by simp [ht], .inr ⟨[.rd_loop], _, by simp; rfl, by simp_all [sl_stage]⟩⟩
        · cases h
          exact ⟨es, ht, .inr ⟨[], _, by simp; rfl, by simp_all [sl_stage]⟩⟩
      | net_hup fl' n =>
        obtain ⟨rfl, he, ho, hi⟩ := hg
        simp only [advance] at h
        split at h
        · cases h
          exact ⟨.on_closed :: es, by simp [ht], .inr ⟨[.cb_closed], .net_fin true n, by simp, by simp_all [sl_stage, Handled]⟩⟩
        · cases h
          exact ⟨es, ht, .inr ⟨[], .net_fin false n, by simp, by simp_all [sl_stage, Handled]⟩⟩
      | net_fin del n =>
        obtain ⟨es', he⟩ := advance_trace h
        refine ⟨es' ++ es, by rw [he, ht, List.append_assoc], .inl ⟨?_, sl_stage_mono (g := .net_fin del n) hg⟩⟩
        simp only [advance] at h
        split at h
        · cases h; simp
        · cases h
          split <;> simp
      | _ => exact absurd hg (by simp [sl_stage])
    | cons x pre =>
      cases hp
      obtain ⟨y, hy⟩ := sl_suffix h hs
      obtain ⟨es', he⟩ := advance_trace h
      exact ⟨es' ++ es, by rw [he, ht, List.append_assoc], .inr ⟨y ++ pre, g, by rw [hy, List.append_assoc]; rfl, sl_stage_mono hg⟩⟩

/-- C130.  All events that `epoll_wait()` reports are passed to the callbacks of the socket. -/
theorem C130_reports {ssl : Bool} {e : Exec (step ssl)} (h : Live e) (n : Nat) (fl : Flags) (hn : e.act n = some (.poll fl)) :
    ∃ m es, n ≤ m ∧ (e.st m).trace = es ++ (e.st n).trace ∧ Handled fl es := by
  obtain ⟨m1, lim, hm1, hs1, es1, ht1⟩ := sl_taken h hn
  obtain ⟨m2, hm2, hs2⟩ := C130_returns h 0 m1
  apply Classical.byContradiction
  intro hno
  have : ∀ j, m1 ≤ j → ∃ es, (e.st j).trace = es ++ (e.st n).trace ∧ sl_prog fl es ((e.st j).stk 0) := by
    intro j hj
    induction j with
    | zero => omega
    | succ j ih =>
      by_cases hj' : m1 = j + 1
      · subst hj'; exact ⟨es1, ht1, .inr ⟨[], _, hs1, rfl⟩⟩
      · obtain ⟨es, ht, hp⟩ := ih (by omega)
        rcases e.next j with ⟨-, hs⟩ | ⟨a, -, hs⟩
        · rw [hs]; exact ⟨es, ht, hp⟩
        · obtain ⟨es', he⟩ := step_trace hs
          have mono : (e.st (j + 1)).trace = (es' ++ es) ++ (e.st n).trace := by rw [he, ht, List.append_assoc]
          have hne : (e.st j).stk 0 ≠ [] := fun h0 => by
            rcases hp with ⟨-, hh⟩ | ⟨pre, g, hh, -⟩
            · exact hno ⟨j, es, by omega, ht, hh⟩
            · rw [h0] at hh; simp at hh
          rcases sl_next (sl_reach h j) hs 0 with ⟨o, f, r, rfl, hs0, -, hadv⟩ | ⟨c, rfl⟩ | ⟨-, hs0, -⟩ | ⟨hs0, -⟩
          · rw [hs0] at hp
            exact sl_prog_adv hadv hs0 ht hp
          · rcases hp with ⟨h0, -⟩ | ⟨pre, g, hh, hg⟩
            · exact absurd h0 hne
            · have : ∃ x, (e.st (j + 1)).stk 0 = x :: (e.st j).stk 0 := by
                unfold step at hs
                dsimp only at hs
                split at hs
                · rename_i h0; exact absurd h0 hne
                · rename_i f r h0
                  split at hs
                  · cases c <;> rw [← Option.some.inj hs] <;> simp [h0]
                  · cases hs
              obtain ⟨x, hx⟩ := this
              exact ⟨es' ++ es, mono, .inr ⟨x :: pre, g, by rw [hx, hh]; rfl, sl_stage_mono hg⟩⟩
          · exact absurd hs0 hne
          · rcases hp with ⟨h0, -⟩ | ⟨pre, g, hh, hg⟩
            · exact absurd h0 hne
            · exact ⟨es' ++ es, mono, .inr ⟨pre, g, by rw [hs0, hh], sl_stage_mono hg⟩⟩
  obtain ⟨es, ht, ⟨-, hh⟩ | ⟨pre, g, hh, -⟩⟩ := this m2 hm2
  · exact hno ⟨m2, es, by omega, ht, hh⟩
  · rw [hs2] at hh; simp at hh

/-! ### Shutting down -/

/-- Positions of `tcp_shut_down()` at which something has been found to be queued. -/
def sl_queued : Frame → Bool
  | .shut_pending | .shut_pending_x | .shut_established | .shut_established_x => true
  | _ => false

/-- Positions at which nothing is left to be sent. -/
def sl_ends : List Frame → Bool
  | .wr_loop :: _ | .wr_closing :: _ | .wr_closing_x :: _ => true
  | _ => false

structure sl_Closing (s : Sys) : Prop where
  queued : ∀ t f r, s.stk t = f :: r → sl_queued f = true → s.wq ≠ []
  closing : s.state = .closing → s.wq ≠ [] ∨ sl_ends (s.stk 0) = true
  stores : ∀ t, Frame.quick_store ∈ s.stk t → ∃ g, Ev.shutdown g ∈ s.trace
  closed : s.state = .closed → (∃ g, Ev.shutdown g ∈ s.trace) ∨ Ev.on_closed ∈ s.trace ∨ ∃ r, s.stk 0 = .wr_eof :: r

theorem sl_queued_under {t f r g r'} (h : Shape t (f :: r)) (hg : r = g :: r') : sl_queued g = false := by
  have := under_of_shape h (g := g) (by rw [hg]; simp)
  cases g <;> simp_all [Frame.under, sl_queued]

theorem sl_adv_queued {ssl s t f r o s'} (h : advance ssl s t f r o = some s') (hr : s.stk t = f :: r) (hsh : Shape t (f :: r)) (hi : sl_queued f = true → s.wq ≠ []) :
    ∀ g r', s'.stk t = g :: r' → sl_queued g = true → s'.wq ≠ [] := by
  have hu := fun g r' (hg : r = g :: r') => sl_queued_under hsh hg
  intro g r' hg hq
  adv h f <;> simp_all [sl_queued]
  all_goals first
    | (split at hg <;> simp_all [sl_queued]; done)
    | (obtain ⟨rfl, -⟩ := hg; simp_all [sl_queued]; done)
    | skip

theorem sl_adv_closing {ssl s t f r o s'} (h : advance ssl s t f r o = some s') (hr : s.stk t = f :: r) (hq : sl_queued f = true → s.wq ≠ [])
    (hi : s.state = .closing → s.wq ≠ [] ∨ sl_ends (f :: r) = true) (hs : s'.state = .closing) : s'.wq ≠ [] ∨ (sl_ends (s'.stk t) = true ∧ f.kind = .wr) := by
  adv h f <;> simp_all [sl_queued, sl_ends, Frame.kind]
  all_goals first
    | (split <;> simp_all; done)
    | skip

theorem sl_adv_closing_other {ssl s t f r o s'} (h : advance ssl s t f r o = some s') (hr : s.stk t = f :: r) (hq : sl_queued f = true → s.wq ≠ [])
    (hs : s'.state = .closing) (hf : f.kind ≠ .wr) : s'.wq ≠ [] ∨ (s.state = .closing ∧ s'.wq = s.wq) := by
  adv h f <;> simp_all [sl_queued, Frame.kind]
  rename_i d
  by_cases hd : d = [] <;> simp [hd]

theorem sl_adv_stores {ssl s t f r o s'} (h : advance ssl s t f r o = some s') (hr : s.stk t = f :: r) (hi : Frame.quick_store ∈ f :: r → ∃ g, Ev.shutdown g ∈ s.trace)
    (hm : Frame.quick_store ∈ s'.stk t) : ∃ g, Ev.shutdown g ∈ s'.trace := by
  adv h f <;> simp_all
  all_goals first
    | (split at hm <;> simp_all; done)
    | skip

theorem sl_adv_closed {ssl s t f r o s'} (h : advance ssl s t f r o = some s') (hr : s.stk t = f :: r) (hq : Frame.quick_store ∈ f :: r → ∃ g, Ev.shutdown g ∈ s.trace)
    (hs : s'.state = .closed) : s.state = .closed ∨ (∃ g, Ev.shutdown g ∈ s'.trace) ∨ Ev.on_closed ∈ s'.trace ∨ (f.kind = .wr ∧ ∃ r, s'.stk t = .wr_eof :: r) := by
  adv h f <;> simp_all [Frame.kind]
  all_goals first
    | (split at hs <;> simp_all; done)
    | skip

theorem sl_adv_eof {ssl s t r o s'} (h : advance ssl s t .wr_eof r o = some s') : Ev.shutdown true ∈ s'.trace := by
  cases h
  simp

theorem sl_ends_callback {f r} (h : f.callback = true) : sl_ends (f :: r) = false := by cases f <;> simp_all [Frame.callback, sl_ends]

/-- A call leaves the rest of the stack alone. -/
theorem sl_closing_push {s s' : Sys} {t : Nat} {g : Frame} (ih : sl_Closing s) (hm : MayCall s t) (hk : s'.stk = (s.go t (g :: s.stk t)).stk) (hq : s'.wq = s.wq) (hst : s'.state = s.state)
    (htr : ∃ es, s'.trace = es ++ s.trace) (h1 : sl_queued g = false) (h2 : g ≠ .quick_store) : sl_Closing s' := by
  obtain ⟨es, htr⟩ := htr
  have h0 : (t = 0 → ∃ f r, s.stk 0 = f :: r ∧ f.callback = true) := by
    rintro rfl
    rcases hm with ⟨-, h, -⟩ | h
    · exact absurd rfl h
    · exact h
  refine ⟨fun u f r hs hf => ?_, fun hc => ?_, fun u hu => ?_, fun hc => ?_⟩
  · rw [hq]
    rw [hk, go_stk] at hs
    split at hs
    · cases hs; rw [h1] at hf; cases hf
    · exact ih.queued u f r hs hf
  · rw [hq]
    rw [hst] at hc
    rcases ih.closing hc with h | h
    · exact .inl h
    · right
      rw [hk, go_stk]
      split
      · rename_i ht
        obtain ⟨f, r, hs, hcb⟩ := h0 ht.symm
        rw [hs, sl_ends_callback hcb] at h
        cases h
      · exact h
  · rw [hk, go_stk] at hu
    have : ∃ g, Ev.shutdown g ∈ s.trace := by
      split at hu
      · rename_i hut
        subst hut
        rcases List.mem_cons.1 hu with h | h
        · exact absurd h.symm h2
        · exact ih.stores _ h
      · exact ih.stores _ hu
    obtain ⟨g, hg⟩ := this
    exact ⟨g, by rw [htr]; exact List.mem_append_right _ hg⟩
  · rw [hst] at hc
    rw [htr]
    rcases ih.closed hc with ⟨g, h⟩ | h | ⟨r, h⟩
    · exact .inl ⟨g, List.mem_append_right _ h⟩
    · exact .inr (.inl (List.mem_append_right _ h))
    · right; right
      rw [hk, go_stk]
      split
      · rename_i ht
        obtain ⟨f, r', hs, hcb⟩ := h0 ht.symm
        rw [hs] at h; cases h; cases hcb
      · exact ⟨r, h⟩

theorem sl_closing {ssl s} (hr : Reachable ssl s) : sl_Closing s := by
  induction hr with
  | init => exact ⟨nofun, nofun, nofun, nofun⟩
  | @step s s' a hrch hs ih =>
    rcases step_cases hs with ⟨t, f, rfl, hm, hf⟩ | ⟨t, d', rfl, hm⟩ | ⟨t, f, r, o, hr, hw, hadv⟩ | ⟨fl, -, -, -, rfl⟩ | ⟨fl, n, h0, -, rfl⟩
    · exact sl_closing_push ih hm rfl rfl rfl ⟨[], rfl⟩ (by rcases hf with rfl | rfl <;> rfl) (by rcases hf with rfl | rfl <;> nofun)
    · exact sl_closing_push ih hm rfl rfl rfl ⟨[_], rfl⟩ rfl nofun
    · have hsh := shape hrch t
      rw [hr] at hsh
      have other := (advance_shape hadv hr hsh).2
      obtain ⟨es, htr⟩ := advance_trace hadv
      have hq := fun h => ih.queued t f r hr h
      have wr0 : f.kind = .wr → t = 0 := fun hk => Classical.byContradiction fun ht => by
        rcases api_of_other hsh ht with h | h <;> rw [hk] at h <;> cases h
      have hst : Frame.quick_store ∈ f :: r → ∃ g, Ev.shutdown g ∈ s.trace := fun h => ih.stores t (by rw [hr]; exact h)
      refine ⟨fun u g r' hs' hg => ?_, fun hc => ?_, fun u hu => ?_, fun hc => ?_⟩
      · by_cases hu : u = t
        · subst hu; exact sl_adv_queued hadv hr hsh hq g r' hs' hg
        · rw [other u hu] at hs'
          have hne := ih.queued u g r' hs' hg
          have : s'.wq = s.wq := sl_wq hadv (by
            cases hl : f.locked with
            | false => rfl
            | true =>
              have : u = t := (mutex hrch).2.2 u t (List.any_eq_true.2 ⟨g, by rw [hs']; simp, by cases g <;> simp_all [sl_queued, Frame.locked]⟩)
                (List.any_eq_true.2 ⟨f, by rw [hr]; simp, hl⟩)
              exact absurd this hu)
          rw [this]; exact hne
      · by_cases ht : t = 0
        · subst ht
          rcases sl_adv_closing hadv hr hq (fun h => by rw [← hr]; exact ih.closing h) hc with h | h
          · exact .inl h
          · exact .inr h.1
        · have hk : f.kind ≠ .wr := fun h => ht (wr0 h)
          rcases sl_adv_closing_other hadv hr hq hc hk with h | ⟨h1, h2⟩
          · exact .inl h
          · rw [h2, other 0 (fun h => ht h.symm)]
            exact ih.closing h1
      · by_cases hut : u = t
        · subst hut; exact sl_adv_stores hadv hr hst hu
        · rw [other u hut] at hu
          obtain ⟨g, hg⟩ := ih.stores u hu
          exact ⟨g, by rw [htr]; exact List.mem_append_right _ hg⟩
      · rcases sl_adv_closed hadv hr hst hc with h | h | h | ⟨hk, h⟩
        · rcases ih.closed h with ⟨g, h⟩ | h | ⟨r', h⟩
          · exact .inl ⟨g, by rw [htr]; exact List.mem_append_right _ h⟩
          · exact .inr (.inl (by rw [htr]; exact List.mem_append_right _ h))
          · by_cases ht : t = 0
            · subst ht
              rw [hr] at h; cases h
              exact .inl ⟨true, sl_adv_eof hadv⟩
            · right; right
              rw [other 0 (fun h => ht h.symm)]
              exact ⟨r', h⟩
        · exact .inl h
        · exact .inr (.inl h)
        · rw [wr0 hk] at h
          exact .inr (.inr h)
    · exact ⟨ih.queued, ih.closing, ih.stores, ih.closed⟩
    · refine ⟨fun u g r' hs' hg => ?_, fun hc => ?_, fun u hu => ?_, fun hc => ?_⟩
      · simp only [go_stk] at hs'
        split at hs'
        · cases hs'; cases hg
        · exact ih.queued u g r' hs' hg
      · rcases ih.closing hc with h | h
        · exact .inl h
        · rw [h0] at h; cases h
      · simp only [go_stk] at hu
        split at hu
        · simp at hu
        · exact ih.stores u hu
      · rcases ih.closed hc with h | h | ⟨r, h⟩
        · exact .inl h
        · exact .inr (.inl h)
        · rw [h0] at h; cases h

/-! ### Events are edge-triggered -/

/-- Positions that are reached only after the connection has been established. -/
def sl_open : Frame → Bool
  | .send_loop .. | .wr_loop | .cb_connected => true
  | _ => false

theorem sl_adv_pending {ssl s t f r o s'} (h : advance ssl s t f r o = some s') (hp : s.state ≠ .pending) : s'.state ≠ .pending := by
  adv h f <;> simp_all
  all_goals (split <;> simp_all)

theorem sl_adv_open {ssl s t f r o s'} (h : advance ssl s t f r o = some s') (hr : s.stk t = f :: r) (hi : (∃ g ∈ f :: r, sl_open g = true) → s.state ≠ .pending) :
    (∃ g ∈ s'.stk t, sl_open g = true) → s'.state ≠ .pending := by
  rintro ⟨g, hg, ho⟩
  by_cases hp : s.state = .pending
  · have hn : ∀ g ∈ f :: r, sl_open g = false := fun g hg => by
      cases hx : sl_open g with
      | false => rfl
      | true => exact absurd hp (hi ⟨g, hg, hx⟩)
    have hf := hn f (by simp)
    have hn' : ∀ g ∈ r, sl_open g = false := fun g hg => hn g (by simp [hg])
    have hgr : g ∉ r := fun hx => by rw [hn' g hx] at ho; cases ho
    clear hn hn' hi
    adv h f <;> simp_all [sl_open]
    all_goals first
      | (split at hg <;> simp_all [sl_open]; done)
      | (rcases hg with rfl | rfl <;> simp_all [sl_open]; done)
      | (rcases hg with rfl | rfl | rfl <;> simp_all [sl_open]; done)
      | skip
  · exact sl_adv_pending h hp

theorem sl_opened {ssl s} (hr : Reachable ssl s) : ∀ t, (∃ g ∈ s.stk t, sl_open g = true) → s.state ≠ .pending := by
  induction hr with
  | init => rintro t ⟨g, hg, -⟩; cases hg
  | @step s s' a hrch hs ih =>
    rcases step_cases hs with ⟨t, f, rfl, hm, hf⟩ | ⟨t, d', rfl, hm⟩ | ⟨t, f, r, o, hr, hw, hadv⟩ | ⟨fl, -, -, -, rfl⟩ | ⟨fl, n, h0, -, rfl⟩
    · rintro u ⟨g, hg, ho⟩
      simp only [go_stk] at hg
      split at hg
      · rename_i hu; subst hu
        rcases List.mem_cons.1 hg with rfl | hg
        · rcases hf with rfl | rfl <;> cases ho
        · exact ih u ⟨g, hg, ho⟩
      · exact ih u ⟨g, hg, ho⟩
    · rintro u ⟨g, hg, ho⟩
      simp only [emit_stk, go_stk] at hg
      split at hg
      · rename_i hu; subst hu
        rcases List.mem_cons.1 hg with rfl | hg
        · cases ho
        · exact ih u ⟨g, hg, ho⟩
      · exact ih u ⟨g, hg, ho⟩
    · have hsh := shape hrch t
      rw [hr] at hsh
      have other := (advance_shape hadv hr hsh).2
      intro u hu
      by_cases hut : u = t
      · subst hut
        exact sl_adv_open hadv hr (by rw [← hr]; exact ih u) hu
      · rw [other u hut] at hu
        exact sl_adv_pending hadv (ih u hu)
    · exact ih
    · rintro u ⟨g, hg, ho⟩
      simp only [go_stk] at hg
      split at hg
      · simp only [List.mem_singleton] at hg; subst hg; cases ho
      · exact ih u ⟨g, hg, ho⟩

/-- The queue becomes non-empty only when the kernel refuses data. -/
theorem sl_adv_wq {ssl s t f r o s'} (h : advance ssl s t f r o = some s') (hq : s.wq = []) (hp : s.state ≠ .pending) (ht : ∀ id d, f = .send_top id d → s.state = .established) :
    s'.wq = [] ∨ (o = .block ∧ ∃ id d w, f = .send_loop id d w ∧ w ≠ []) := by
  adv h f <;> simp_all
  all_goals first
    | exact ⟨_, _, _, ⟨rfl, rfl, rfl⟩, by assumption⟩
    | (split <;> simp_all)

/-- The connection has been ended. -/
def sl_over (tr : List Ev) : Prop := Aborted tr ∨ Ev.on_closed ∈ tr ∨ ∃ g, Ev.shutdown g ∈ tr

theorem sl_over_mono {es tr : List Ev} (h : sl_over tr) : sl_over (es ++ tr) := by
  rcases h with (h | h) | h | ⟨g, h⟩
  · exact .inl (.inl (by simp [h]))
  · exact .inl (.inr (by simp [h]))
  · exact .inr (.inl (by simp [h]))
  · exact .inr (.inr ⟨g, by simp [h]⟩)

theorem sl_step_wq {ssl s a s'} (hr : Reachable ssl s) (h : step ssl s a = some s') (hq : s.wq = []) (hp : s.state ≠ .pending) (hn : ¬ sl_over s.trace) :
    (s'.wq = [] ∧ s'.state ≠ .pending) ∨ ∃ t id d w r, a = .run t .block ∧ s.stk t = .send_loop id d w :: r ∧ w ≠ [] := by
  cases a with
  | run t o =>
    unfold step at h
    dsimp only at h
    split at h
    · cases h
    · rename_i f r hs
      split at h
      · cases h
      · rcases sl_adv_wq h hq hp (fun id d hf => by
          subst hf
          have lock0 : holds s 0 = true → t = 0 := (mutex hr).2.2 t 0 (List.any_eq_true.2 ⟨_, by rw [hs]; exact List.mem_cons_self, rfl⟩)
          cases hst : s.state with
          | pending => exact absurd hst hp
          | established => rfl
          | closing =>
            exfalso
            rcases (sl_closing hr).closing hst with hx | hx
            · exact hx hq
            · have h0 : t = 0 := lock0 (by
                unfold holds
                unfold sl_ends at hx
                split at hx <;> first | (rename_i heq; rw [heq]; rfl) | cases hx)
              subst h0
              rw [hs] at hx; cases hx
          | closed =>
            exfalso
            rcases (sl_closing hr).closed hst with hx | hx | ⟨r', hx⟩
            · exact hn (.inr (.inr hx))
            · exact hn (.inr (.inl hx))
            · have h0 : t = 0 := lock0 (by unfold holds; rw [hx]; rfl)
              subst h0
              rw [hs] at hx; cases hx) with h1 | ⟨rfl, id, d, w, rfl, hw⟩
        · exact .inl ⟨h1, sl_adv_pending h hp⟩
        · exact .inr ⟨t, id, d, w, r, rfl, hs, hw⟩
  | call t c =>
    left
    unfold step at h
    dsimp only at h
    split at h
    · split at h
      · cases h
      · cases c <;> cases h <;> exact ⟨hq, hp⟩
    · split at h
      · cases c <;> cases h <;> exact ⟨hq, hp⟩
      · cases h
  | poll fl =>
    unfold step at h
    dsimp only at h
    split at h <;> cases h
    exact .inl ⟨hq, hp⟩
  | take n =>
    unfold step at h
    dsimp only at h
    split at h
    · cases h
    · split at h <;> cases h
      exact .inl ⟨hq, hp⟩

theorem sl_step_event {ssl s a s' fl} (hr : Reachable ssl s) (h : step ssl s a = some s') (he : s.event = some fl) : s'.event = some fl ∨ ∃ lim, s'.stk 0 = [.net_lock fl lim] := by
  rcases step_cases h with ⟨t, f, rfl, hm, hf⟩ | ⟨t, d', rfl, hm⟩ | ⟨t, f, r, o, hs, hw, hadv⟩ | ⟨fl', -, hev, -, rfl⟩ | ⟨fl', n, h0, hev, rfl⟩
  · exact .inl he
  · exact .inl he
  · have hsh := shape hr t
    rw [hs] at hsh
    exact .inl (by rw [(advance_closed hadv hs hsh).1]; exact he)
  · rw [he] at hev; cases hev
  · rw [he] at hev; cases hev
    exact .inr ⟨n, by simp⟩

/-- The network thread is about to write. -/
theorem sl_wr_shape {ssl s t r} (hr : Reachable ssl s) (hs : s.stk t = .wr_loop :: r) : t = 0 ∧ ∃ fl lim, r = [.net_in fl lim] := by
  have := shape hr t
  rw [hs] at this
  obtain ⟨hp, hsh⟩ := this
  cases r with
  | nil => simp [Place, Frame.kind] at hp
  | cons g r =>
    cases g <;> simp [Place, Frame.kind] at hp
    · rename_i fl lim
      obtain ⟨hp2, -⟩ := hsh
      cases r with
      | nil =>
        simp [Place, Frame.kind] at hp2
        exact ⟨hp2, fl, lim, rfl⟩
      | cons g r => cases g <;> simp [Place, Frame.kind] at hp2 <;> (rename_i b _; cases b <;> simp at hp2)
    · rename_i b _; cases b <;> simp at hp

section
variable {ssl : Bool} {e : Exec (step ssl)}

/-- If something is queued, then a report is owed or being processed. -/
def sl_K (e : Exec (step ssl)) (n : Nat) : Prop :=
  ((e.st n).wq = [] ∧ (e.st n).state ≠ .pending) ∨ OutOwed e n ∨ (∃ fl, (e.st n).event = some fl ∧ fl.out = true) ∨ (∃ fl lim, fl.out = true ∧ sl_way fl lim ((e.st n).stk 0)) ∨
    (∃ fl lim, (e.st n).stk 0 = [.wr_loop, .net_in fl lim]) ∨ sl_over (e.st n).trace

theorem sl_owed_poll {n fl} (ha : e.act n = some (.poll fl)) : OutOwed e (n + 1) = (fl.out = false ∧ OutOwed e n) := by simp only [OutOwed, ha]
theorem sl_owed_run {n t o} (ha : e.act n = some (.run t o)) : OutOwed e (n + 1) = ((Offers (e.st n) t ∧ o = .block) ∨ (¬ Offers (e.st n) t ∧ OutOwed e n)) := by simp only [OutOwed, ha]
theorem sl_owed_call {n t c} (ha : e.act n = some (.call t c)) : OutOwed e (n + 1) = OutOwed e n := by simp only [OutOwed, ha]
theorem sl_owed_take {n k} (ha : e.act n = some (.take k)) : OutOwed e (n + 1) = OutOwed e n := by simp only [OutOwed, ha]
theorem sl_owed_none {n} (ha : e.act n = none) : OutOwed e (n + 1) = OutOwed e n := by simp only [OutOwed, ha]

theorem sl_K_loop (h : Live e) {n a fl lim} (ha : e.act n = some a) (hs : step ssl (e.st n) a = some (e.st (n + 1))) (hw : (e.st n).stk 0 = [.wr_loop, .net_in fl lim]) : sl_K e (n + 1) := by
  have hr := sl_reach h n
  rcases sl_next hr hs 0 with ⟨o, f, r, rfl, hf, -, hadv⟩ | ⟨c, rfl⟩ | ⟨-, h0, -⟩ | ⟨h0, -⟩
  · rw [hw] at hf; cases hf
    have hp : (e.st n).state ≠ .pending := sl_opened hr 0 ⟨.wr_loop, by rw [hw]; simp, rfl⟩
    have hp' := sl_adv_pending hadv hp
    simp only [advance] at hadv
    split at hadv
    · rename_i hq
      left
      refine ⟨?_, hp'⟩
      rw [← Option.some.inj hadv]
      exact hq
    · rename_i hq
      split at hadv
      · split at hadv
        · right; right; right; right; left
          rw [← Option.some.inj hadv]
          exact ⟨fl, lim, by simp⟩
        · cases hadv
      · right; left
        rw [sl_owed_run ha]
        exact .inl ⟨.inr ⟨hq, _, hw⟩, rfl⟩
      · right; right; right; right; right
        rw [← Option.some.inj hadv]
        exact .inl (.inl (by simp))
      · cases hadv
  · simp [step, hw, Frame.callback] at hs
  · rw [hw] at h0; cases h0
  · right; right; right; right; left
    exact ⟨fl, lim, by rw [h0]; exact hw⟩

theorem sl_K_wq (h : Live e) {n a} (ha : e.act n = some a) (hs : step ssl (e.st n) a = some (e.st (n + 1))) (hq : (e.st n).wq = []) (hp : (e.st n).state ≠ .pending) (hn : ¬ sl_over (e.st n).trace) : sl_K e (n + 1) := by
  rcases sl_step_wq (sl_reach h n) hs hq hp hn with h1 | ⟨t, id, d, w, r, rfl, hst, hw⟩
  · exact .inl h1
  · right; left
    rw [sl_owed_run ha]
    exact .inl ⟨.inl ⟨id, d, w, r, hst, hw⟩, rfl⟩

theorem sl_K_all (h : Live e) (n : Nat) : sl_K e n := by
  induction n with
  | zero => exact .inr (.inl trivial)
  | succ n ih =>
    rcases e.next n with ⟨ha, hs⟩ | ⟨a, ha, hs⟩
    · unfold sl_K at *
      rw [sl_owed_none ha, hs]
      exact ih
    · by_cases hn : sl_over (e.st n).trace
      · obtain ⟨es, he⟩ := step_trace hs
        exact .inr (.inr (.inr (.inr (.inr (by rw [he]; exact sl_over_mono hn)))))
      · rcases ih with ⟨hq, hp⟩ | ih | ⟨fl, he, ho⟩ | ⟨fl, lim, ho, hw⟩ | ⟨fl, lim, hw⟩ | ih
        · exact sl_K_wq h ha hs hq hp hn
        · cases a with
          | call t c => exact .inr (.inl (by rw [sl_owed_call ha]; exact ih))
          | take k => exact .inr (.inl (by rw [sl_owed_take ha]; exact ih))
          | poll fl =>
            cases ho : fl.out with
            | false => exact .inr (.inl (by rw [sl_owed_poll ha]; exact ⟨ho, ih⟩))
            | true =>
              right; right; left
              simp only [step] at hs
              split at hs
              · rw [← Option.some.inj hs]; exact ⟨fl, rfl, ho⟩
              · cases hs
          | run t o =>
            by_cases hof : Offers (e.st n) t
            · rcases hof with ⟨id, d, w, r, hst, hw⟩ | ⟨hq, r, hst⟩
              · have hm : Frame.send_loop id d w ∈ (e.st n).stk t := by rw [hst]; simp
                exact sl_K_wq h ha hs ((output (sl_reach h n) fun h => hn (.inl h)).sending d w ⟨t, id, hm⟩).1 (sl_opened (sl_reach h n) t ⟨_, hm, rfl⟩) hn
              · obtain ⟨rfl, fl, lim, rfl⟩ := sl_wr_shape (sl_reach h n) hst
                exact sl_K_loop h ha hs hst
            · exact .inr (.inl (by rw [sl_owed_run ha]; exact .inr ⟨hof, ih⟩))
        · rcases sl_step_event (sl_reach h n) hs he with h1 | ⟨lim, h1⟩
          · exact .inr (.inr (.inl ⟨fl, h1, ho⟩))
          · exact .inr (.inr (.inr (.inl ⟨fl, lim, ho, .inl h1⟩)))
        · by_cases hab : Aborted (e.st (n + 1)).trace
          · exact .inr (.inr (.inr (.inr (.inr (.inl hab)))))
          · rcases sl_way_step (sl_reach h n) hs hw ho hab with h1 | h1 | h1
            · exact .inr (.inr (.inr (.inl ⟨fl, lim, ho, h1⟩)))
            · exact .inr (.inr (.inr (.inr (.inl ⟨fl, lim, h1⟩))))
            · exact .inr (.inr (.inr (.inr (.inr (.inr (.inl h1))))))
        · exact sl_K_loop h ha hs hw
        · exact absurd ih hn

/-- Nothing ends the connection from `n` on, and fewer than `L` bytes, of those that have been accepted, are given to the kernel. -/
def sl_stuck (e : Exec (step ssl)) (L n : Nat) : Prop := ∀ m, n ≤ m → ¬ sl_over (e.st m).trace ∧ (kernelBytes (e.st m).trace).length < L

/-- Then the network thread tries to send again and again. -/
theorem sl_tries (h : Writeable e) {L n : Nat} (hL : ∀ m, n ≤ m → L ≤ (acceptedBytes (e.st m).trace).length) (hst : sl_stuck e L n) (k : Nat) (hk : n ≤ k) :
    ∃ m fl lim, k ≤ m ∧ (e.st m).stk 0 = [.wr_loop, .net_in fl lim] := by
  obtain ⟨m0, hm0, he0⟩ := C130_returns h.toLive 0 k
  have hlt : ∀ m, n ≤ m → (kernelBytes (e.st m).trace).length < (acceptedBytes (e.st m).trace).length := fun m hm => by have := (hst m hm).2; have := hL m hm; omega
  have : ∃ m2 fl lim, m0 ≤ m2 ∧ fl.out = true ∧ (e.st m2).stk 0 = [.net_lock fl lim] := by
    rcases sl_K_all h.toLive m0 with ⟨hq, -⟩ | ho | ⟨fl, hev, ho⟩ | ⟨fl, lim, -, hw⟩ | ⟨fl, lim, hw⟩ | hov
    · exfalso
      have := hlt m0 (by omega)
      rcases C25_output_any_time ssl _ (sl_reach h.toLive m0) (fun hx => (hst m0 (by omega)).1 (.inl hx)) with h1 | ⟨t, id, p, w, -, -, h1⟩
      · rw [hq, List.append_nil] at h1; rw [h1] at this; omega
      · rw [h1, List.length_append] at this; omega
    · obtain ⟨m1, fl, hm1, hact, ho⟩ := h.polls m0 ho (fun m hm => ⟨sl_registered (sl_reach h.toLive m) fun hx => (hst m (by omega)).1 (.inr (.inl hx)), fun g hx => (hst m (by omega)).1 (.inr (.inr ⟨g, hx⟩)), hlt m (by omega)⟩)
      obtain ⟨m2, lim, hm2, hq, -⟩ := sl_taken h.toLive hact
      exact ⟨m2, fl, lim, by omega, ho, hq⟩
    · obtain ⟨m2, lim, hm2, hq⟩ := sl_take h.toLive ⟨hev, he0⟩
      exact ⟨m2, fl, lim, hm2, ho, hq⟩
    · exact absurd he0 (sl_way_ne hw)
    · rw [he0] at hw; cases hw
    · exact absurd hov (hst m0 (by omega)).1
  obtain ⟨m2, fl, lim, hm2, ho, hq⟩ := this
  obtain ⟨m3, hm3, he3⟩ := C130_returns h.toLive 0 m2
  apply Classical.byContradiction
  intro hno
  have : ∀ j, m2 ≤ j → sl_way fl lim ((e.st j).stk 0) := by
    intro j hj
    induction j with
    | zero => have : m2 = 0 := by omega
              subst this; exact .inl hq
    | succ j ih =>
      by_cases hn : m2 = j + 1
      · subst hn; exact .inl hq
      · have ih := ih (by omega)
        rcases e.next j with ⟨-, hs⟩ | ⟨a, ha, hs⟩
        · rw [hs]; exact ih
        · rcases sl_way_step (sl_reach h.toLive j) hs ih ho (fun hx => (hst (j + 1) (by omega)).1 (.inl hx)) with h1 | h1 | h1
          · exact h1
          · exact absurd ⟨j + 1, fl, lim, by omega, h1⟩ hno
          · exact absurd (.inr (.inl h1)) (hst (j + 1) (by omega)).1
  exact sl_way_ne (this m3 hm3) he3

theorem sl_wq_ne {s : Sys} {fl lim L} (hr : Reachable ssl s) (hs : s.stk 0 = [.wr_loop, .net_in fl lim]) (ha : ¬ Aborted s.trace) (hL : L ≤ (acceptedBytes s.trace).length)
    (hk : (kernelBytes s.trace).length < L) : s.wq ≠ [] := by
  intro hq
  have hns : ∀ d w, ¬ Sending s d w := by
    rintro d w ⟨t, id, hm⟩
    have : t = 0 := (mutex hr).2.2 t 0 (List.any_eq_true.2 ⟨_, hm, rfl⟩) (by simp [holds, hs, Frame.locked])
    subst this
    rw [hs] at hm
    simp at hm
  have := (output hr ha).idle hns
  rw [hq, List.append_nil] at this
  rw [this] at hk
  omega

theorem sl_not_stuck (h : Writeable e) {L n : Nat} (hL : ∀ m, n ≤ m → L ≤ (acceptedBytes (e.st m).trace).length) (hst : sl_stuck e L n) : False := by
  have key : ∀ b j, n ≤ j → L - (kernelBytes (e.st j).trace).length ≤ b → False := by
    intro b
    induction b with
    | zero => intro j hj hb; have := (hst j hj).2; omega
    | succ b ih =>
      intro j hj hb
      obtain ⟨m, k, hm, hs, ha⟩ := h.room j fun m hm => by
        obtain ⟨k, fl, lim, hk, hs⟩ := sl_tries h hL hst m (by omega)
        exact ⟨k, hk, sl_wq_ne (sl_reach h.toLive k) hs (fun hx => (hst k (by omega)).1 (.inl hx)) (hL k (by omega)) (hst k (by omega)).2, _, hs⟩
      have h1 : (kernelBytes (e.st j).trace).length ≤ (kernelBytes (e.st m).trace).length := by
        obtain ⟨es, he⟩ := sl_trace_mono e hm
        rw [he, sl_kernel_append, List.length_append]
        omega
      refine ih (m + 1) (by omega) ?_
      rcases e.next m with ⟨ha', -⟩ | ⟨a', ha', hst'⟩
      · rw [ha] at ha'; cases ha'
      · rw [ha] at ha'; cases ha'
        have := sl_grows hst' hs
        omega
  exact key _ n (Nat.le_refl _) (Nat.le_refl _)

/-- C130.  Data for which `tcp_send()` has returned `true` before the connection has been shut down are given to the kernel eventually, unless the connection is abandoned or closed. -/
theorem C130_flushes (h : Writeable e) (n : Nat) (hn : Ev.shutdown true ∉ (e.st n).trace) :
    ∃ m, n ≤ m ∧ (acceptedBytes (e.st n).trace <+: kernelBytes (e.st m).trace ∨ Aborted (e.st m).trace ∨ Ev.on_closed ∈ (e.st m).trace) := by
  apply Classical.byContradiction
  intro hno
  have acc : ∀ m, n ≤ m → acceptedBytes (e.st n).trace <+: acceptedBytes (e.st m).trace := fun m hm => by
    obtain ⟨es, he⟩ := sl_trace_mono e hm
    rw [he, sl_accepted_append]
    exact List.prefix_append _ _
  refine sl_not_stuck h (L := (acceptedBytes (e.st n).trace).length) (n := n) (fun m hm => (acc m hm).length_le) fun m hm => ?_
  have ha : ¬ Aborted (e.st m).trace := fun ha => hno ⟨m, hm, .inr (.inl ha)⟩
  refine ⟨fun hov => ?_, ?_⟩
  · rcases hov with hov | hov | ⟨g, hg⟩
    · exact ha hov
    · exact hno ⟨m, hm, .inr (.inr hov)⟩
    · cases g with
      | false => exact ha (.inr hg)
      | true =>
        obtain ⟨es, he⟩ := sl_trace_mono e hm
        rw [he] at hg
        obtain ⟨x, y, hxy⟩ := List.append_of_mem ((List.mem_append.1 hg).resolve_right hn)
        have htr : (e.st m).trace = x ++ .shutdown true :: (y ++ (e.st n).trace) := by rw [he, hxy]; simp
        rcases C26_drained ssl _ (sl_reach h.toLive m) _ _ htr with hx | hx
        · refine ha ?_
          rw [htr]
          rcases hx with hx | hx
          · left; simp only [List.mem_append, List.mem_cons] at hx ⊢; exact .inr (.inr hx)
          · right; simp only [List.mem_append, List.mem_cons] at hx ⊢; exact .inr (.inr hx)
        · refine hno ⟨m, hm, .inl ?_⟩
          rw [htr, sl_kernel_append]
          refine List.IsPrefix.trans ?_ (List.prefix_append _ _)
          show _ <+: kernelBytes (y ++ (e.st n).trace)
          rw [hx, sl_accepted_append]
          exact List.prefix_append _ _
  · apply Classical.byContradiction
    intro hlt
    refine hno ⟨m, hm, .inl ?_⟩
    rcases C25_output_any_time ssl _ (sl_reach h.toLive m) ha with h1 | ⟨t, id, p, w, -, -, h1⟩
    · have h2 : kernelBytes (e.st m).trace <+: acceptedBytes (e.st m).trace := ⟨_, h1⟩
      exact List.prefix_of_prefix_length_le (acc m hm) h2 (by omega)
    · rw [h1]
      exact (acc m hm).trans (List.prefix_append _ _)

/-- The thread has no call of `tcp_send()` that can be accepted. -/
def sl_quiet (s : Sys) (t : Nat) : Prop := ∀ f ∈ s.stk t, f.pastId = none

theorem sl_quiet_step {s a s'} (hr : Reachable ssl s) (h : step ssl s a = some s') {t : Nat} (hq : sl_quiet s t) (hst : s.state.rank ≥ 2) : sl_quiet s' t := by
  intro g hg
  rcases sl_next hr h t with ⟨o, f, r, rfl, hs, -, hadv⟩ | ⟨c, rfl⟩ | ⟨rfl, hs, n, fl, -, -, hs'⟩ | ⟨hs, -⟩
  · have hf : f.pastId = none := hq f (by rw [hs]; simp)
    rcases (advance_late hadv hs).2.2 g hg with (h1 | h1) | ⟨-, h1 | h1 | ⟨-, h1, -⟩⟩
    · exact hq g (by rw [hs]; exact List.mem_cons_of_mem _ h1)
    · rw [h1]; exact hf
    · exact h1
    · rw [h1]; exact hf
    · omega
  · unfold step at h
    dsimp only at h
    split at h
    · split at h
      · cases h
      · cases c <;> cases h <;> simp only [emit_stk, go_stk, if_true, List.mem_singleton] at hg <;> rw [hg] <;> rfl
    · rename_i f r hs
      split at h
      · cases c <;> cases h <;> simp only [emit_stk, go_stk, if_true] at hg <;> rcases List.mem_cons.1 hg with rfl | hg <;> first | rfl | exact hq g (by rw [hs]; exact hg)
      · cases h
  · rw [hs', List.mem_singleton] at hg
    rw [hg]; rfl
  · rw [hs] at hg
    exact hq g hg

/-- All threads are so eventually, if the state stays the same. -/
theorem sl_all_quiet (h : Live e) {n : Nat} (hc : ∀ m, n ≤ m → (e.st m).state.rank ≥ 2) : ∃ M, n ≤ M ∧ ∀ m, M ≤ m → ∀ t, sl_quiet (e.st m) t := by
  have one : ∀ t, ∃ M, n ≤ M ∧ ∀ m, M ≤ m → sl_quiet (e.st m) t := by
    intro t
    obtain ⟨M, hM, hs⟩ := C130_returns h t n
    refine ⟨M, hM, fun m hm => ?_⟩
    induction m with
    | zero =>
      have : M = 0 := by omega
      subst this; intro f hf; rw [hs] at hf; cases hf
    | succ m ih =>
      by_cases hn : M = m + 1
      · subst hn; intro f hf; rw [hs] at hf; cases hf
      · have ih := ih (by omega)
        rcases e.next m with ⟨-, hst⟩ | ⟨a, -, hst⟩
        · rw [hst]; exact ih
        · exact sl_quiet_step (sl_reach h m) hst ih (hc m (by omega))
  have many : ∀ k, ∃ M, n ≤ M ∧ ∀ m, M ≤ m → ∀ t, t < k → sl_quiet (e.st m) t := by
    intro k
    induction k with
    | zero => exact ⟨n, Nat.le_refl _, fun _ _ _ h => absurd h (Nat.not_lt_zero _)⟩
    | succ k ih =>
      obtain ⟨M1, h1, q1⟩ := ih
      obtain ⟨M2, h2, q2⟩ := one k
      refine ⟨max M1 M2, by omega, fun m hm t ht => ?_⟩
      by_cases htk : t = k
      · subst htk; exact q2 m (by omega)
      · exact q1 m (by omega) t (by omega)
  obtain ⟨M, hM, q⟩ := many (e.st 0).threads
  refine ⟨M, hM, fun m hm t => ?_⟩
  by_cases ht : t < (e.st 0).threads
  · exact q m hm t ht
  · have hth : (e.st m).threads = (e.st 0).threads := e.always (P := fun s => s.threads = (e.st 0).threads) 0 rfl (fun s a s' hp hs => by
      rw [← hp]
      rcases step_cases hs with ⟨t, f, rfl, hm, hf⟩ | ⟨t, d', rfl, hm⟩ | ⟨t, f, r, o, hr, hw, hadv⟩ | ⟨fl, -, -, -, rfl⟩ | ⟨fl, n, h0, -, rfl⟩
      · rfl
      · rfl
      · exact advance_threads hadv
      · rfl
      · rfl) m (Nat.zero_le _)
    intro f hf
    rw [(mutex (sl_reach h m)).1 t (by omega)] at hf
    cases hf

theorem sl_quiet_accepted {s a s'} (h : step ssl s a = some s') (hq : ∀ t, sl_quiet s t) : acceptedBytes s'.trace = acceptedBytes s.trace := by
  rcases step_cases h with ⟨t, f, rfl, hm, hf⟩ | ⟨t, d', rfl, hm⟩ | ⟨t, f, r, o, hr, hw, hadv⟩ | ⟨fl, -, -, -, rfl⟩ | ⟨fl, n, h0, -, rfl⟩
  · rfl
  · rfl
  · obtain ⟨-, ⟨es, he, -, h1⟩, -⟩ := advance_late hadv hr
    have hf : f.pastId = none := hq t f (by rw [hr]; simp)
    have : ∀ es : List Ev, (∀ id d, Ev.sent id d ∈ es → f.pastId = some id) → acceptedBytes es = [] := by
      intro es
      induction es with
      | nil => intro _; rfl
      | cons x es ih =>
        intro hx
        have ih := ih fun id d hm => hx id d (List.mem_cons_of_mem _ hm)
        cases x <;> first | exact ih | (have := hx _ _ List.mem_cons_self; rw [hf] at this; cases this)
    rw [he, sl_accepted_append, this es h1, List.append_nil]
  · rfl
  · rfl

/-- C130.  After `tcp_shut_down()` has returned `true`, the connection is shut down eventually, after all data have been sent (see `C26_drained`), unless it is abandoned or closed before. -/
theorem C130_shuts (h : Writeable e) (n : Nat) (hn : Ev.shut true ∈ (e.st n).trace) :
    ∃ m, n ≤ m ∧ (Ev.shutdown true ∈ (e.st m).trace ∨ Aborted (e.st m).trace ∨ Ev.on_closed ∈ (e.st m).trace) := by
  apply Classical.byContradiction
  intro hno
  have h1 : ∀ m, n ≤ m → Ev.shutdown true ∉ (e.st m).trace := fun m hm hx => hno ⟨m, hm, .inl hx⟩
  have h2 : ∀ m, n ≤ m → ¬ Aborted (e.st m).trace := fun m hm hx => hno ⟨m, hm, .inr (.inl hx)⟩
  have h3 : ∀ m, n ≤ m → Ev.on_closed ∉ (e.st m).trace := fun m hm hx => hno ⟨m, hm, .inr (.inr hx)⟩
  have rk : ∀ m, n ≤ m → (e.st m).state.rank ≥ 2 := fun m hm => shut_state (sl_reach h.toLive m) true (by
    obtain ⟨es, he⟩ := sl_trace_mono e hm
    rw [he]; exact List.mem_append_right _ hn)
  have closing : ∀ m, n ≤ m → (e.st m).state = .closing := by
    intro m hm
    have hrk := rk m hm
    cases hst : (e.st m).state with
    | pending => rw [hst] at hrk; simp [State.rank] at hrk
    | established => rw [hst] at hrk; simp [State.rank] at hrk
    | closing => rfl
    | closed =>
      exfalso
      rcases (sl_closing (sl_reach h.toLive m)).closed hst with ⟨g, hg⟩ | hg | ⟨r, hr⟩
      · cases g with
        | true => exact h1 m hm hg
        | false => exact h2 m hm (.inr hg)
      · exact h3 m hm hg
      · obtain ⟨m', hm', he⟩ := C130_returns h.toLive 0 m
        have : ∀ j, m ≤ j → (e.st j).stk 0 = .wr_eof :: r := by
          intro j hj
          induction j with
          | zero => have : m = 0 := by omega
                    subst this; exact hr
          | succ j ih =>
            by_cases hmj : m = j + 1
            · subst hmj; exact hr
            · have ih := ih (by omega)
              rcases e.next j with ⟨-, hs⟩ | ⟨a, -, hs⟩
              · rw [hs]; exact ih
              · rcases sl_next (sl_reach h.toLive j) hs 0 with ⟨o, f, r', rfl, hs0, -, hadv⟩ | ⟨c, rfl⟩ | ⟨-, hs0, -⟩ | ⟨hs0, -⟩
                · rw [ih] at hs0; cases hs0
                  exact absurd (sl_adv_eof hadv) (h1 (j + 1) (by omega))
                · simp [step, ih, Frame.callback] at hs
                · rw [ih] at hs0; cases hs0
                · rw [hs0]; exact ih
        rw [this m' hm'] at he
        cases he
  obtain ⟨M, hM, quiet⟩ := sl_all_quiet h.toLive rk
  have acc : ∀ m, M ≤ m → acceptedBytes (e.st m).trace = acceptedBytes (e.st M).trace := by
    intro m hm
    induction m with
    | zero => have : M = 0 := by omega
              rw [this]
    | succ m ih =>
      by_cases hmm : M = m + 1
      · rw [hmm]
      · rw [← ih (by omega)]
        rcases e.next m with ⟨-, hs⟩ | ⟨a, -, hs⟩
        · rw [hs]
        · exact sl_quiet_accepted hs (quiet m (by omega))
  obtain ⟨m1, hm1, hf | hf | hf⟩ := C130_flushes h M (h1 M hM)
  · obtain ⟨m2, hm2, he⟩ := C130_returns h.toLive 0 m1
    have idle : ∀ d w, ¬ Sending (e.st m2) d w := by
      rintro d w ⟨t, id, hs⟩
      have := quiet m2 (by omega) t _ hs
      cases this
    have ho := (output (sl_reach h.toLive m2) (h2 m2 (by omega))).idle idle
    rw [acc m2 (by omega)] at ho
    obtain ⟨es, htr⟩ := sl_trace_mono e hm2
    rw [htr, sl_kernel_append] at ho
    have hlen := congrArg List.length ho
    have := hf.length_le
    simp only [List.length_append] at hlen
    have hw : (e.st m2).wq = [] := List.length_eq_zero_iff.1 (by omega)
    rcases (sl_closing (sl_reach h.toLive m2)).closing (closing m2 (by omega)) with hx | hx
    · exact hx hw
    · rw [he] at hx; cases hx
  · exact h2 m1 (by omega) hf
  · exact h3 m1 (by omega) hf

end

/-! ### An execution

One byte of two is sent at once, the other one is queued; then the connection is shut down, and the network thread sends the rest. -/

def slRun : List Act := connectActs ++ sendActs ++ blockActs ++ [.call 2 .shut_down, .run 2 .none, .run 2 .none, .run 2 .none, .run 2 .none, .run 2 .none, .run 2 .none] ++ flushActs 100 ++
  [.run 0 (.io 1), .run 0 .none, .run 0 .none, .run 0 .none, .run 0 .none, .run 0 .none, .run 0 .none, .run 0 .none]

def slExec : Exec (step false) := Exec.ofRun demoSys slRun (by decide +kernel)

theorem slExec_reach (n : Nat) : Reachable false (slExec.st n) :=
  slExec.always (P := Reachable false) 0 (.init 2 none) (fun _ _ _ h1 h2 => .step _ h1 h2) n (Nat.zero_le _)

theorem slExec_end {n : Nat} (hn : 38 ≤ n) : (∀ t, (slExec.st n).stk t = []) ∧ (slExec.st n).event = none ∧ (kernelBytes (slExec.st n).trace).length = (acceptedBytes (slExec.st n).trace).length := by
  have h := Exec.ofRun_end (step := step false) demoSys slRun (by decide +kernel) n hn
  have : ∀ s, runs (step false) demoSys slRun = some s → s.threads = 3 ∧ s.stk 0 = [] ∧ s.stk 1 = [] ∧ s.stk 2 = [] ∧ s.event = none ∧ (kernelBytes s.trace).length = (acceptedBytes s.trace).length := by
    have : ((runs (step false) demoSys slRun).all fun s => decide (s.threads = 3 ∧ s.stk 0 = [] ∧ s.stk 1 = [] ∧ s.stk 2 = [] ∧ s.event = none ∧
        (kernelBytes s.trace).length = (acceptedBytes s.trace).length)) = true := by decide +kernel
    intro s hs
    rw [hs] at this
    exact of_decide_eq_true this
  obtain ⟨h1, h2, h3, h4, h5, h6⟩ := this (slExec.st n) h.symm
  refine ⟨fun t => ?_, h5, h6⟩
  match t with
  | 0 => exact h2
  | 1 => exact h3
  | 2 => exact h4
  | t + 3 => exact (mutex (slExec_reach n)).1 _ (by omega)

theorem slExec_live : Writeable slExec where
  start := .init 2 none
  goes t n h := by
    obtain ⟨k, hk, a, ⟨o, rfl⟩, he⟩ := h (n + 38) (by omega)
    simp [step, (slExec_end (n := k) (by omega)).1 t] at he
  calm t n h := absurd ((slExec_end (n := n + 38) (by omega)).1 t) (h _ (by omega))
  polls n _ h := by
    have h1 := (h (n + 38) (by omega)).2.2
    have h2 := (slExec_end (n := n + 38) (by omega)).2.2
    omega
  takes n h := by
    obtain ⟨k, hk, a, ⟨o, rfl⟩, he⟩ := h (n + 38) (by omega)
    simp [step, (slExec_end (n := k) (by omega)).2.1] at he
  room n h := by
    obtain ⟨k, hk, -, r, hr⟩ := h (n + 38) (by omega)
    rw [(slExec_end (n := k) (by omega)).1 0] at hr
    cases hr

/- At time 25, two bytes have been accepted, one of which has been sent, and `tcp_shut_down()` has returned; in the end both have been sent, and the connection has been shut down. -/
example : Writeable slExec ∧ slExec.act 25 = some (.poll ⟨false, true, false, false⟩) ∧ acceptedBytes (slExec.st 25).trace = [65, 66] ∧ kernelBytes (slExec.st 25).trace = [65] ∧ .shut true ∈ (slExec.st 25).trace ∧ .call_send 0 [65, 66] ∈ (slExec.st 14).trace ∧
    .sent 0 [65, 66] ∉ (slExec.st 14).trace ∧ kernelBytes (slExec.st 38).trace = [65, 66] ∧ .shutdown true ∈ (slExec.st 38).trace ∧ .shutdown false ∉ (slExec.st 38).trace :=
  ⟨slExec_live, rfl, by decide +kernel, by decide +kernel, by decide +kernel, by decide +kernel, by decide +kernel, by decide +kernel, by decide +kernel, by decide +kernel⟩

end Verif.Props
