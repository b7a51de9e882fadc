import Verif.Spec.Socket
namespace Verif.Socket

/-! ### Shape of the call stacks -/

inductive Kind where
  | quick | api | wr | rd | leave | closed | net
deriving DecidableEq

def Frame.kind : Frame → Kind
  | .quick _ | .quick_store => .quick
  | .send_check .. | .send_lock .. | .send_top .. | .send_loop .. | .send_fail .. | .shut_check | .shut_lock | .shut_top | .shut_ok
  | .shut_pending | .shut_pending_x | .shut_established | .shut_established_x => .api
  | .wr_top | .wr_top_x | .cb_connected | .wr_loop | .wr_closing | .wr_closing_x | .wr_eof => .wr
  | .rd_loop | .cb_stream _ => .rd
  | .leave => .leave
  | .cb_closed => .closed
  | .net_lock .. | .net_top .. | .net_in .. | .net_hup .. | .net_fin .. => .net

/-- Which frames can be directly above the frames `r` of thread `t`. -/
def Place (t : Nat) (k : Kind) : List Frame → Prop
  | [] => (k = .net ∧ t = 0) ∨ ((k = .quick ∨ k = .api) ∧ t ≠ 0)
  | .send_fail _ :: _ | .shut_ok :: _ | .leave :: _ => k = .quick
  | .cb_connected :: _ | .cb_stream _ :: _ | .cb_closed :: _ => k = .quick ∨ k = .api
  | .net_in .. :: _ => k = .wr ∨ k = .leave
  | .net_hup .. :: _ => k = .rd ∨ k = .leave
  | .net_fin true _ :: _ => k = .closed ∨ k = .quick
  | _ :: _ => False

def Shape (t : Nat) : List Frame → Prop
  | [] => True
  | f :: r => Place t f.kind r ∧ Shape t r

theorem place_leave {t k r} (h : Place t k r) (hk : k = .wr ∨ k = .rd) : Place t .leave r := by
  unfold Place at *
  rcases hk with rfl | rfl <;> split at h <;> simp_all

theorem place_closed {t r} (h : Place t .closed r) : Place t .quick r := by
  unfold Place at *
  split at h <;> simp_all

theorem place_callback {t f r} (h : f.callback = true) : Place t .api (f :: r) ∧ Place t .quick (f :: r) := by
  cases f <;> simp_all [Frame.callback, Place]

@[simp] theorem go_stk (s : Sys) (t u : Nat) (fs : List Frame) : (s.go t fs).stk u = if u = t then fs else s.stk u := rfl
@[simp] theorem go_state (s : Sys) (t : Nat) (fs : List Frame) : (s.go t fs).state = s.state := rfl
@[simp] theorem go_wq (s : Sys) (t : Nat) (fs : List Frame) : (s.go t fs).wq = s.wq := rfl
@[simp] theorem go_rq (s : Sys) (t : Nat) (fs : List Frame) : (s.go t fs).rq = s.rq := rfl
@[simp] theorem go_trace (s : Sys) (t : Nat) (fs : List Frame) : (s.go t fs).trace = s.trace := rfl
@[simp] theorem go_ids (s : Sys) (t : Nat) (fs : List Frame) : (s.go t fs).ids = s.ids := rfl
@[simp] theorem go_threads (s : Sys) (t : Nat) (fs : List Frame) : (s.go t fs).threads = s.threads := rfl
@[simp] theorem go_registered (s : Sys) (t : Nat) (fs : List Frame) : (s.go t fs).registered = s.registered := rfl
@[simp] theorem go_event (s : Sys) (t : Nat) (fs : List Frame) : (s.go t fs).event = s.event := rfl
@[simp] theorem go_throttled (s : Sys) (t : Nat) (fs : List Frame) : (s.go t fs).throttled = s.throttled := rfl
@[simp] theorem go_write_only (s : Sys) (t : Nat) (fs : List Frame) : (s.go t fs).write_only = s.write_only := rfl
@[simp] theorem emit_stk (s : Sys) (e : Ev) : (s.emit e).stk = s.stk := rfl
@[simp] theorem emit_state (s : Sys) (e : Ev) : (s.emit e).state = s.state := rfl
@[simp] theorem emit_wq (s : Sys) (e : Ev) : (s.emit e).wq = s.wq := rfl
@[simp] theorem emit_rq (s : Sys) (e : Ev) : (s.emit e).rq = s.rq := rfl
@[simp] theorem emit_trace (s : Sys) (e : Ev) : (s.emit e).trace = e :: s.trace := rfl
@[simp] theorem emit_ids (s : Sys) (e : Ev) : (s.emit e).ids = s.ids := rfl
@[simp] theorem emit_threads (s : Sys) (e : Ev) : (s.emit e).threads = s.threads := rfl
@[simp] theorem emit_registered (s : Sys) (e : Ev) : (s.emit e).registered = s.registered := rfl
@[simp] theorem emit_event (s : Sys) (e : Ev) : (s.emit e).event = s.event := rfl
@[simp] theorem emit_throttled (s : Sys) (e : Ev) : (s.emit e).throttled = s.throttled := rfl
@[simp] theorem emit_write_only (s : Sys) (e : Ev) : (s.emit e).write_only = s.write_only := rfl

/-- Split a transition of the innermost frame into its cases. -/
macro "adv" h:ident f:ident : tactic => `(tactic| (
  cases $f:ident <;> simp only [advance] at $h:ident <;> (repeat' split at $h:ident) <;>
    cases $h:ident))

theorem advance_shape {ssl s t f r o s'} (h : advance ssl s t f r o = some s') (hr : s.stk t = f :: r) (hs : Shape t (f :: r)) :
    Shape t (s'.stk t) ∧ (∀ u, u ≠ t → s'.stk u = s.stk u) := by
  obtain ⟨hp, hs⟩ := hs
  adv h f <;> simp_all [Shape, Frame.kind] <;>
    first | exact hp | exact ⟨by simp [Place], hp⟩ | exact ⟨by simp [Place], place_leave hp (by simp)⟩ | exact place_closed hp | simp [Place]

/-- A thread that may call a function: it is idle, or inside a callback. -/
def MayCall (s : Sys) (t : Nat) : Prop := (s.stk t = [] ∧ t ≠ 0 ∧ t < s.threads) ∨ ∃ g r, s.stk t = g :: r ∧ g.callback = true

/-- The ways in which a transition of the system can come about. -/
theorem step_cases {ssl s a s'} (h : step ssl s a = some s') :
    (∃ t f, s' = s.go t (f :: s.stk t) ∧ MayCall s t ∧ (f = .shut_check ∨ f = .quick false)) ∨
    (∃ t d, s' = ({ s.go t (.send_check s.ids d :: s.stk t) with ids := s.ids + 1 } : Sys).emit (.call_send s.ids d) ∧ MayCall s t) ∨
    (∃ t f r o, s.stk t = f :: r ∧ (f.waits = true → free s t = true) ∧ advance ssl s t f r o = some s') ∨
    (∃ fl, s.stk 0 = [] ∧ s.event = none ∧ s.registered = true ∧ s' = { s with event := some fl }) ∨
    (∃ fl n, s.stk 0 = [] ∧ s.event = some fl ∧ s' = { s.go 0 [.net_lock fl n] with event := none }) := by
  cases a with
  | call t c =>
    unfold step at h
    dsimp only at h
    split at h
    · rename_i hr
      split at h
      · exact nomatch h
      · rename_i ht
        have hm : MayCall s t := .inl ⟨hr, fun h => ht (.inl h), Nat.lt_of_not_le fun h => ht (.inr h)⟩
        cases c <;> cases h
        · exact .inr (.inl ⟨t, _, by rw [hr], hm⟩)
        · exact .inl ⟨t, .shut_check, by rw [hr], hm, .inl rfl⟩
        · exact .inl ⟨t, .quick false, by rw [hr], hm, .inr rfl⟩
    · rename_i g r hr
      split at h
      · rename_i ht
        have hm : MayCall s t := .inr ⟨g, r, hr, ht⟩
        cases c <;> cases h
        · exact .inr (.inl ⟨t, _, by rw [hr], hm⟩)
        · exact .inl ⟨t, .shut_check, by rw [hr], hm, .inl rfl⟩
        · exact .inl ⟨t, .quick false, by rw [hr], hm, .inr rfl⟩
      · exact nomatch h
  | run t o =>
    unfold step at h
    dsimp only at h
    split at h
    · exact nomatch h
    · rename_i f r hr
      split at h
      · exact nomatch h
      · rename_i hw
        exact .inr (.inr (.inl ⟨t, f, r, o, hr, fun hf => by simpa [hf] using hw, h⟩))
  | poll fl =>
    unfold step at h
    dsimp only at h
    split at h
    · rename_i hc
      cases h
      exact .inr (.inr (.inr (.inl ⟨fl, hc.1, hc.2.1, hc.2.2, rfl⟩)))
    · exact nomatch h
  | take n =>
    unfold step at h
    dsimp only at h
    split at h
    · exact nomatch h
    · rename_i fl he
      split at h
      · rename_i hc
        cases h
        exact .inr (.inr (.inr (.inr ⟨fl, n, hc, he, rfl⟩)))
      · exact nomatch h

theorem shape {ssl s} (h : Reachable ssl s) : ∀ t, Shape t (s.stk t) := by
  induction h with
  | init => intro t; trivial
  | step a _ hs ih =>
    have place {s : Sys} {t} (hm : MayCall s t) : Place t .api (s.stk t) ∧ Place t .quick (s.stk t) := by
      rcases hm with ⟨h, h0, -⟩ | ⟨g, r, h, hg⟩
      · rw [h]; simp [Place, h0]
      · rw [h]; exact place_callback hg
    rcases step_cases hs with ⟨t, f, rfl, hm, hf⟩ | ⟨t, d, rfl, hm⟩ | ⟨t, f, r, o, hr, -, hadv⟩ | ⟨fl, -, -, -, rfl⟩ | ⟨fl, n, h0, -, rfl⟩
    · intro u
      by_cases hu : u = t
      · subst hu
        simp only [go_stk, if_true, Shape]
        refine ⟨?_, ih u⟩
        rcases hf with rfl | rfl
        · exact (place hm).1
        · exact (place hm).2
      · simp only [go_stk, hu, if_false]; exact ih u
    · intro u
      by_cases hu : u = t
      · subst hu
        simp only [emit_stk, go_stk, if_true, Shape]
        exact ⟨(place hm).1, ih u⟩
      · simp only [emit_stk, go_stk, hu, if_false]; exact ih u
    · have hsh := ih t
      rw [hr] at hsh
      obtain ⟨h1, h2⟩ := advance_shape hadv hr hsh
      intro u
      by_cases hu : u = t
      · subst hu; exact h1
      · rw [h2 u hu]; exact ih u
    · exact ih
    · intro u
      by_cases hu : u = 0
      · subst hu; simp [Shape, Place, Frame.kind]
      · simp only [go_stk, hu, if_false]; exact ih u

/-! ### Mutual exclusion -/

theorem advance_threads {ssl s t f r o s'} (h : advance ssl s t f r o = some s') : s'.threads = s.threads := by
  adv h f <;> first | rfl | (split <;> rfl)

theorem advance_holds {ssl s t f r o s'} (h : advance ssl s t f r o = some s') (hr : s.stk t = f :: r) (hh : holds s' t = true) :
    holds s t = true ∨ f.waits = true := by
  unfold holds at *
  rw [hr]
  adv h f <;> simp_all [Frame.locked, Frame.waits]

/-- Threads beyond the number of threads do nothing, and only one thread has the mutex. -/
theorem mutex {ssl s} (h : Reachable ssl s) : (∀ t, s.threads ≤ t → s.stk t = []) ∧ (0 < s.threads) ∧ ∀ t u, holds s t = true → holds s u = true → t = u := by
  induction h with
  | init => exact ⟨fun _ _ => rfl, Nat.succ_pos _, fun t u h => by simp [holds] at h⟩
  | @step s s' a hrch hs ih =>
    obtain ⟨i1, i0, i2⟩ := ih
    have lt {t} (hm : MayCall s t) : t < s.threads := by
      rcases hm with ⟨h, h0, h⟩ | ⟨g, r, h, hg⟩
      · exact h
      · exact Nat.lt_of_not_le fun hle => by rw [i1 t hle] at h; exact nomatch h
    rcases step_cases hs with ⟨t, f, rfl, hm, hf⟩ | ⟨t, d, rfl, hm⟩ | ⟨t, f, r, o, hr, hw, hadv⟩ | ⟨fl, -, -, -, rfl⟩ | ⟨fl, n, h0, -, rfl⟩
    · refine ⟨fun u hu => ?_, i0, ?_⟩
      · have : u ≠ t := by have := lt hm; simp only [go_threads] at hu; omega
        simp only [go_stk, this, if_false]; exact i1 u hu
      · have key : ∀ u, holds (s.go t (f :: s.stk t)) u = holds s u := by
          intro u
          by_cases hu : u = t
          · subst hu; rcases hf with rfl | rfl <;> simp [holds, Frame.locked]
          · simp [holds, hu]
        intro u v; rw [key, key]; exact i2 u v
    · refine ⟨fun u hu => ?_, i0, ?_⟩
      · have : u ≠ t := by have := lt hm; simp only [emit_threads, go_threads] at hu; omega
        simp only [emit_stk, go_stk, this, if_false]; exact i1 u hu
      · have key : ∀ u, holds (({ s.go t (.send_check s.ids d :: s.stk t) with ids := s.ids + 1 } : Sys).emit (.call_send s.ids d)) u = holds s u := by
          intro u
          by_cases hu : u = t
          · subst hu; simp [holds, Frame.locked]
          · simp [holds, hu]
        intro u v; rw [key, key]; exact i2 u v
    · have hsh := shape hrch t
      rw [hr] at hsh
      obtain ⟨-, h2⟩ := advance_shape hadv hr hsh
      have ht : t < s.threads := Nat.lt_of_not_le fun hle => by rw [i1 t hle] at hr; exact nomatch hr
      rw [advance_threads hadv]
      refine ⟨fun u hu => ?_, i0, ?_⟩
      · rw [h2 u (by omega)]; exact i1 u hu
      · have other : ∀ u, u ≠ t → holds s' u = holds s u := fun u hu => by simp only [holds, h2 u hu]
        have excl : holds s' t = true → ∀ u, u ≠ t → holds s u = true → False := by
          intro h1 u hu hhu
          rcases advance_holds hadv hr h1 with h | h
          · exact hu (i2 u t hhu h)
          · have hfree := hw h
            unfold free at hfree
            rw [List.all_eq_true] at hfree
            have hlt : u < s.threads := Nat.lt_of_not_le fun hle => by simp [holds, i1 u hle] at hhu
            have := hfree u (List.mem_range.2 hlt)
            simp [hu, hhu] at this
        intro u v hu hv
        by_cases h1 : u = t
        · by_cases h3 : v = t
          · rw [h1, h3]
          · subst h1; rw [other v h3] at hv; exact (excl hu v h3 hv).elim
        · rw [other u h1] at hu
          by_cases h3 : v = t
          · subst h3; exact (excl hv u h1 hu).elim
          · rw [other v h3] at hv; exact i2 u v hu hv
    · exact ⟨i1, i0, i2⟩
    · refine ⟨fun u hu => ?_, i0, ?_⟩
      · have : u ≠ 0 := by have : s.threads ≤ u := hu; omega
        simp only [go_stk, this, if_false]; exact i1 u hu
      · have key : ∀ u, holds { s.go 0 [.net_lock fl n] with event := none } u = holds s u := by
          intro u
          by_cases hu : u = 0
          · subst hu; simp [holds, Frame.locked, h0]
          · simp [holds, hu]
        intro u v; rw [key, key]; exact i2 u v

/-! ### Frames that are not innermost -/

def Frame.under : Frame → Bool
  | .send_fail _ | .shut_ok | .leave | .cb_connected | .cb_stream _ | .cb_closed | .net_in .. | .net_hup .. | .net_fin .. => true
  | _ => false

theorem under_of_shape {t f r g} (h : Shape t (f :: r)) (hg : g ∈ r) : g.under = true := by
  induction r generalizing f with
  | nil => exact nomatch hg
  | cons x r ih =>
    rcases List.mem_cons.1 hg with rfl | hg
    · have := h.1
      cases g <;> simp_all [Place, Frame.under]
    · exact ih h.2 hg

end Verif.Socket
