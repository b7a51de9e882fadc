import Verif.Spec.SocketLive
import Verif.Proofs.Live
import Verif.Props.Socket
/-!
# C130: calls of functions of sockets return

An execution that meets the hypotheses is given in `Verif/Props/SocketFlush.lean`.
-/
namespace Verif.Props
open Verif.Socket Verif.Live

/-- How far a frame is from its end. -/
def sl_base : Frame → Nat
  | .send_check _ d => 8 + 2 * d.length
  | .send_lock _ d => 7 + 2 * d.length
  | .send_top _ d => 6 + 2 * d.length
  | .send_loop _ _ w => 5 + 2 * w.length
  | .send_fail _ => 1
  | .shut_check => 9
  | .shut_lock => 8
  | .shut_top => 7
  | .shut_ok => 1
  | .shut_pending => 6
  | .shut_pending_x => 5
  | .shut_established => 4
  | .shut_established_x => 3
  | .quick _ => 2
  | .quick_store => 1
  | .wr_top => 20
  | .wr_top_x => 19
  | .cb_connected => 18
  | .wr_loop => 10
  | .wr_closing => 5
  | .wr_closing_x => 4
  | .wr_eof => 3
  | .rd_loop => 12
  | .cb_stream eof => if eof then 11 else 13
  | .leave => 1
  | .net_lock .. => 100
  | .net_top .. => 99
  | .net_in .. => 60
  | .net_hup .. => 40
  | .cb_closed => 5
  | .net_fin .. => 1

def sl_sum : List Frame → Nat
  | [] => 0
  | f :: r => sl_base f + sl_sum r

theorem sl_adv {ssl s t f r o s'} (h : advance ssl s t f r o = some s') (h1 : ∀ k, o ≠ .consume k) (h2 : ∀ d, o ≠ .data d) (h3 : o ≠ .io 0) :
    sl_sum (s'.stk t) + s'.wq.length < sl_sum (f :: r) + s.wq.length := by
  adv h f
  all_goals first
    | exact absurd rfl (h1 _)
    | exact absurd rfl (h2 _)
    | skip
  all_goals simp_all [sl_sum, sl_base]
  all_goals first
    | omega
    | (split <;> omega)
    | skip

theorem sl_wq {ssl s t f r o s'} (h : advance ssl s t f r o = some s') (hf : f.locked = false) : s'.wq = s.wq := by
  adv h f
  all_goals first
    | (cases hf; done)
    | simp

theorem sl_under {f : Frame} (h : f.under = true) : f.locked = true := by cases f <;> simp_all [Frame.under, Frame.locked]

theorem sl_hold {ssl s t f r o s'} (h : advance ssl s t f r o = some s') (hr : s.stk t = f :: r) (hsh : Shape t (f :: r)) (hh : holds s t = true) : holds s' t = true ∨ s'.stk t = [] := by
  have hcons : ∀ x l, r = x :: l → holds { s with stk := fun _ => r } t = true := by
    rintro x l rfl
    exact List.any_eq_true.2 ⟨x, by simp, sl_under (under_of_shape hsh (by simp))⟩
  cases r with
  | nil =>
    have hl : f.locked = true := by
      unfold holds at hh
      rw [hr] at hh
      simpa using hh
    adv h f
    all_goals first
      | (cases hl; done)
      | (right; simp; done)
      | (left; simp [holds, Frame.locked]; done)
      | (left; simp [holds]; split <;> simp [Frame.locked]; done)
      | (left; simp [holds, hr, Frame.locked]; done)
      | (simp [Shape, Place, Frame.kind] at hsh; done)
  | cons x l =>
    left
    have hx : x.locked = true := sl_under (under_of_shape hsh (by simp))
    have : x ∈ s'.stk t := by
      adv h f
      all_goals simp [hr]
      all_goals (split <;> simp)
    exact List.any_eq_true.2 ⟨x, this, hx⟩

/-- What a step can do to a thread. -/
theorem sl_next {ssl s a s'} (hr : Reachable ssl s) (h : step ssl s a = some s') (t : Nat) :
    (∃ o f r, a = .run t o ∧ s.stk t = f :: r ∧ (f.waits = true → free s t = true) ∧ advance ssl s t f r o = some s') ∨ (∃ c, a = .call t c) ∨
    (t = 0 ∧ s.stk 0 = [] ∧ ∃ n fl, a = .take n ∧ s.event = some fl ∧ s'.stk 0 = [.net_lock fl n]) ∨
    (s'.stk t = s.stk t ∧ (holds s t = true → s'.wq = s.wq) ∧ ∀ o, a ≠ .run t o) := by
  cases a with
  | call u c =>
    by_cases hu : t = u
    · subst hu; exact .inr (.inl ⟨c, rfl⟩)
    · right; right; right
      unfold step at h
      dsimp only at h
      split at h
      · split at h
        · cases h
        · cases c <;> cases h <;> simp [hu]
      · split at h
        · cases c <;> cases h <;> simp [hu]
        · cases h
  | run u o =>
    unfold step at h
    dsimp only at h
    split at h
    · cases h
    · rename_i f r hs
      split at h
      · cases h
      · rename_i hw
        by_cases hu : t = u
        · subst hu
          exact .inl ⟨o, f, r, rfl, hs, fun hf => by simpa [hf] using hw, h⟩
        · right; right; right
          have hsh := shape hr u
          rw [hs] at hsh
          refine ⟨(advance_shape h hs hsh).2 t hu, fun hh => sl_wq h ?_, fun o' he => by cases he; exact hu rfl⟩
          cases hl : f.locked with
          | false => rfl
          | true => exact absurd ((mutex hr).2.2 t u hh (List.any_eq_true.2 ⟨f, by rw [hs]; simp, hl⟩)) hu
  | poll fl =>
    right; right; right
    unfold step at h
    dsimp only at h
    split at h
    · cases h; exact ⟨rfl, fun _ => rfl, by simp⟩
    · cases h
  | take n =>
    unfold step at h
    dsimp only at h
    split at h
    · cases h
    · rename_i fl he
      split at h
      · rename_i hs
        cases h
        by_cases ht : t = 0
        · subst ht
          exact .inr (.inr (.inl ⟨rfl, hs, n, fl, rfl, he, by simp⟩))
        · right; right; right
          simp [ht]
      · cases h

/-- A thread that has the mutex keeps it, or ends what it is doing. -/
theorem sl_keeps {ssl s a s'} (hr : Reachable ssl s) (h : step ssl s a = some s') {t : Nat} (hh : holds s t = true) : holds s' t = true ∨ s'.stk t = [] := by
  rcases sl_next hr h t with ⟨o, f, r, rfl, hs, -, hadv⟩ | ⟨c, rfl⟩ | ⟨rfl, hs, -⟩ | ⟨hs, -⟩
  · have hsh := shape hr t
    rw [hs] at hsh
    exact sl_hold hadv hs hsh hh
  · left
    unfold step at h
    dsimp only at h
    split at h
    · rename_i hs; unfold holds at hh; rw [hs] at hh; cases hh
    · rename_i f r hs
      unfold holds at hh ⊢
      rw [hs] at hh
      split at h
      · cases c <;> cases h <;> simp only [emit_stk, go_stk, if_true, List.any_cons] at hh ⊢ <;> rw [hh, Bool.or_true]
      · cases h
  · unfold holds at hh; rw [hs] at hh; cases hh
  · left; unfold holds at hh ⊢; rw [hs]; exact hh

/-- A frame can go on, unless it waits for the mutex. -/
theorem sl_can (ssl : Bool) (s : Sys) (t : Nat) (f : Frame) (r : List Frame) : ∃ o, (advance ssl s t f r o).isSome = true := by
  cases f
  case cb_connected => exact ⟨.ok, rfl⟩
  case cb_stream => exact ⟨.ok, rfl⟩
  case cb_closed => exact ⟨.ok, rfl⟩
  case rd_loop => exact ⟨.block, rfl⟩
  all_goals
    refine ⟨.block, ?_⟩
    simp only [advance]
    repeat' split
    all_goals rfl

theorem sl_enabled {ssl s} {t : Nat} {f : Frame} {r : List Frame} (hs : s.stk t = f :: r) (hw : f.waits = true → free s t = true) : Enabled (step ssl) (fun a => ∃ o, a = .run t o) s := by
  obtain ⟨o, ho⟩ := sl_can ssl s t f r
  refine ⟨.run t o, ⟨o, rfl⟩, ?_⟩
  simp only [step, hs]
  rw [if_neg]
  · exact ho
  · intro hc
    simp only [Bool.and_eq_true, Bool.not_eq_true'] at hc
    rw [hw hc.1] at hc
    exact nomatch hc.2

theorem sl_free {s : Sys} {t : Nat} (h : ∀ u, holds s u = true → u = t) : free s t = true := by
  unfold free
  rw [List.all_eq_true]
  intro u _
  cases hu : holds s u with
  | false => simp
  | true => simp [h u hu]

section
variable {ssl : Bool} {e : Exec (step ssl)}

theorem sl_reach (h : Live e) (n : Nat) : Reachable ssl (e.st n) :=
  e.always (P := Reachable ssl) 0 h.start (fun _ _ _ h1 h2 => .step _ h1 h2) n (Nat.zero_le _)

/-- A thread that has the mutex, and does nothing again and again, ends what it is doing. -/
theorem sl_release (h : Live e) {t m0 : Nat} (hc : ∀ k, m0 ≤ k → ¬ e.Taken (Again t) k) : ∀ n, (m0 ≤ n ∧ holds (e.st n) t = true) → ∃ m, n ≤ m ∧ (e.st m).stk t = [] := by
  have key : ∀ n, (m0 ≤ n ∧ holds (e.st n) t = true) →
      (((m0 ≤ n + 1 ∧ holds (e.st (n + 1)) t = true) ∧ sl_sum ((e.st (n + 1)).stk t) + (e.st (n + 1)).wq.length ≤ sl_sum ((e.st n).stk t) + (e.st n).wq.length) ∧
        (e.Taken (fun a => ∃ o, a = .run t o) n → sl_sum ((e.st (n + 1)).stk t) + (e.st (n + 1)).wq.length < sl_sum ((e.st n).stk t) + (e.st n).wq.length)) ∨ (e.st (n + 1)).stk t = [] := by
    rintro n ⟨hn, hh⟩
    rcases e.next n with ⟨ha, hs⟩ | ⟨a, ha, hs⟩
    · left
      rw [hs]
      exact ⟨⟨⟨by omega, hh⟩, Nat.le_refl _⟩, by rintro ⟨a, h1, -⟩; rw [ha] at h1; cases h1⟩
    · rcases sl_keeps (sl_reach h n) hs hh with hk | hk
      · left
        rcases sl_next (sl_reach h n) hs t with ⟨o, f, r, rfl, hst, -, hadv⟩ | ⟨c, rfl⟩ | ⟨rfl, hst, -⟩ | ⟨hst, hq, hno⟩
        · have := sl_adv hadv (fun k hk => hc n hn ⟨_, ha, by rw [hk]; rfl⟩) (fun d hd => hc n hn ⟨_, ha, by rw [hd]; rfl⟩) (fun hi => hc n hn ⟨_, ha, by rw [hi]; rfl⟩)
          rw [← hst] at this
          exact ⟨⟨⟨by omega, hk⟩, Nat.le_of_lt this⟩, fun _ => this⟩
        · exact absurd ⟨_, ha, rfl⟩ (hc n hn)
        · unfold holds at hh; rw [hst] at hh; cases hh
        · rw [hst, hq hh]
          exact ⟨⟨⟨by omega, hk⟩, Nat.le_refl _⟩, by rintro ⟨a', h1, o, rfl⟩; rw [ha] at h1; cases h1; exact absurd rfl (hno o)⟩
      · exact .inr hk
  refine e.leads_often (P := fun n => m0 ≤ n ∧ holds (e.st n) t = true) (Q := fun n => (e.st n).stk t = []) (T := fun a => ∃ o, a = .run t o)
    (fun n => sl_sum ((e.st n).stk t) + (e.st n).wq.length) (fun n hn => (key n hn).imp (·.1) id) (fun n hn => ?_) (fun n hn ht => (key n hn).imp (fun g => ⟨g.1.1, g.2 ht⟩) id)
  apply h.goes t
  intro m hm
  have hh := (hn m hm).1.2
  refine ⟨m, Nat.le_refl _, ?_⟩
  cases hs : (e.st m).stk t with
  | nil => unfold holds at hh; rw [hs] at hh; cases hh
  | cons f r => exact sl_enabled hs fun _ => sl_free fun u hu => (mutex (sl_reach h m)).2.2 u t hu hh

/-- Again and again, no thread has the mutex. -/
theorem sl_unlocked (h : Live e) (n : Nat) : ∃ m, n ≤ m ∧ ∀ u, holds (e.st m) u = false := by
  apply Classical.byContradiction
  intro hno
  have hall : ∀ m, n ≤ m → ∃ u, holds (e.st m) u = true := fun m hm => Classical.byContradiction fun hc => hno ⟨m, hm, fun u => by
    cases hu : holds (e.st m) u with
    | false => rfl
    | true => exact absurd ⟨u, hu⟩ hc⟩
  obtain ⟨t, ht⟩ := hall n (Nat.le_refl _)
  have same : ∀ m, n ≤ m → holds (e.st m) t = true := by
    intro m hm
    induction m with
    | zero => have : n = 0 := by omega
              subst this; exact ht
    | succ m ih =>
      by_cases hn : n = m + 1
      · subst hn; exact ht
      · have ih := ih (by omega)
        rcases e.next m with ⟨-, hs⟩ | ⟨a, ha, hs⟩
        · rw [hs]; exact ih
        · rcases sl_keeps (sl_reach h m) hs ih with hk | hk
          · exact hk
          · obtain ⟨u, hu⟩ := hall (m + 1) hm
            by_cases hut : u = t
            · subst hut; exact hu
            · -- another thread cannot have got it in the same step
              exfalso
              have hst : (e.st (m + 1)).stk t = (e.st m).stk t ∨ (e.st (m + 1)).stk u = (e.st m).stk u := by
                rcases sl_next (sl_reach h m) hs t with ⟨o, f, r, rfl, -, -, -⟩ | ⟨c, rfl⟩ | ⟨rfl, -, n', fl, rfl, -⟩ | ⟨h1, -⟩
                · rcases sl_next (sl_reach h m) hs u with ⟨_, _, _, h1, -⟩ | ⟨c, h1⟩ | ⟨-, -, _, _, h1, -⟩ | ⟨h1, -⟩
                  · cases h1; exact absurd rfl hut
                  · cases h1
                  · cases h1
                  · exact .inr h1
                · rcases sl_next (sl_reach h m) hs u with ⟨_, _, _, h1, -⟩ | ⟨c, h1⟩ | ⟨-, -, _, _, h1, -⟩ | ⟨h1, -⟩
                  · cases h1
                  · cases h1; exact absurd rfl hut
                  · cases h1
                  · exact .inr h1
                · rcases sl_next (sl_reach h m) hs u with ⟨_, _, _, h1, -⟩ | ⟨c, h1⟩ | ⟨h1, -⟩ | ⟨h1, -⟩
                  · cases h1
                  · cases h1
                  · exact absurd h1 hut
                  · exact .inr h1
                · exact .inl h1
              rcases hst with h1 | h1
              · rw [hk] at h1
                unfold holds at ih; rw [← h1] at ih; cases ih
              · have : holds (e.st m) u = true := by unfold holds at hu ⊢; rw [← h1]; exact hu
                exact hut ((mutex (sl_reach h m)).2.2 u t this ih)
  obtain ⟨m0, hm0, hc⟩ := h.calm t n (fun m hm he => by have := same m hm; unfold holds at this; rw [he] at this; cases this)
  obtain ⟨m, hm, he⟩ := sl_release h hc m0 ⟨Nat.le_refl _, same m0 hm0⟩
  have := same m (by omega)
  unfold holds at this; rw [he] at this; cases this

/-- C130.  Every thread ends what it is doing again and again: calls of functions of the socket return, and so does what the network thread does for an event. -/
theorem C130_returns (h : Live e) (t n : Nat) : ∃ m, n ≤ m ∧ (e.st m).stk t = [] := by
  apply Classical.byContradiction
  intro hno
  have hne : ∀ m, n ≤ m → (e.st m).stk t ≠ [] := fun m hm he => hno ⟨m, hm, he⟩
  obtain ⟨m0, hm0, hc⟩ := h.calm t n hne
  have hnh : ∀ m, m0 ≤ m → holds (e.st m) t = false := fun m hm => by
    cases hh : holds (e.st m) t with
    | false => rfl
    | true =>
      obtain ⟨m', hm', he⟩ := sl_release h hc m ⟨hm, hh⟩
      exact absurd he (hne m' (by omega))
  have key : ∀ j, m0 ≤ j → sl_sum ((e.st (j + 1)).stk t) ≤ sl_sum ((e.st j).stk t) ∧ (e.Taken (fun a => ∃ o, a = .run t o) j → sl_sum ((e.st (j + 1)).stk t) < sl_sum ((e.st j).stk t)) := by
    intro j hj
    rcases e.next j with ⟨ha, hs⟩ | ⟨a, ha, hs⟩
    · rw [hs]; exact ⟨Nat.le_refl _, by rintro ⟨a, h1, -⟩; rw [ha] at h1; cases h1⟩
    · rcases sl_next (sl_reach h j) hs t with ⟨o, f, r, rfl, hst, -, hadv⟩ | ⟨c, rfl⟩ | ⟨rfl, hst, -⟩ | ⟨hst, hq, hno⟩
      · have := sl_adv hadv (fun k hk => hc j hj ⟨_, ha, by rw [hk]; rfl⟩) (fun d hd => hc j hj ⟨_, ha, by rw [hd]; rfl⟩) (fun hi => hc j hj ⟨_, ha, by rw [hi]; rfl⟩)
        have hf : f.locked = false := by
          have := hnh j hj
          unfold holds at this; rw [hst] at this
          simp only [List.any_cons, Bool.or_eq_false_iff] at this
          exact this.1
        rw [sl_wq hadv hf, ← hst] at this
        have : sl_sum ((e.st (j + 1)).stk t) < sl_sum ((e.st j).stk t) := by omega
        exact ⟨Nat.le_of_lt this, fun _ => this⟩
      · exact absurd ⟨_, ha, rfl⟩ (hc j hj)
      · exact absurd hst (hne j (by omega))
      · rw [hst]
        exact ⟨Nat.le_refl _, by rintro ⟨a', h1, o, rfl⟩; rw [ha] at h1; cases h1; exact absurd rfl (hno o)⟩
  obtain ⟨m, -, hf⟩ := e.leads_often (P := fun j => m0 ≤ j) (Q := fun _ => False) (T := fun a => ∃ o, a = .run t o) (fun j => sl_sum ((e.st j).stk t))
    (fun j hj => .inl ⟨by omega, (key j hj).1⟩) (fun j hj => by
      apply h.goes t
      intro m hm
      obtain ⟨k, hk, hun⟩ := sl_unlocked h m
      refine ⟨k, hk, ?_⟩
      have hj' : m0 ≤ j := (hj j (Nat.le_refl _)).1
      cases hs : (e.st k).stk t with
      | nil => exact absurd hs (hne k (by omega))
      | cons f r => exact sl_enabled hs fun _ => sl_free fun u hu => by rw [hun u] at hu; cases hu) (fun j hj ht => .inl ⟨by omega, (key j hj).2 ht⟩) m0 (Nat.le_refl _)
  exact hf

end

/-! ### Answers -/

/-- The frame belongs to the call `id` of `tcp_send(d)`. -/
def sl_of (id : Nat) (d : Bytes) : Frame → Prop
  | .send_check i d' | .send_lock i d' | .send_top i d' | .send_loop i d' _ => i = id ∧ d' = d
  | .send_fail i => i = id
  | _ => False

def sl_done (id : Nat) (d : Bytes) (tr : List Ev) : Prop := Ev.sent id d ∈ tr ∨ Ev.refused id ∈ tr

theorem sl_done_append {id d} {es tr : List Ev} (h : sl_done id d tr) : sl_done id d (es ++ tr) := h.imp (fun h => List.mem_append_right _ h) (fun h => List.mem_append_right _ h)

theorem sl_answer {ssl s t f r o s' id d} (h : advance ssl s t f r o = some s') (hs : s.stk t = f :: r) (hg : ∃ g ∈ f :: r, sl_of id d g) :
    (∃ g ∈ s'.stk t, sl_of id d g) ∨ sl_done id d s'.trace := by
  obtain ⟨g, hg, hi⟩ := hg
  rcases List.mem_cons.1 hg with rfl | hg
  · adv h g <;> simp_all [sl_of, sl_done]
  · left
    refine ⟨g, ?_, hi⟩
    adv h f <;> simp_all
    all_goals (split <;> simp_all)

theorem step_trace {ssl s a s'} (h : step ssl s a = some s') : ∃ es, s'.trace = es ++ s.trace := by
  rcases step_cases h with ⟨t, f, rfl, hm, hf⟩ | ⟨t, d, rfl, hm⟩ | ⟨t, f, r, o, hr, hw, hadv⟩ | ⟨fl, -, -, -, rfl⟩ | ⟨fl, n, h0, -, rfl⟩
  · exact ⟨[], rfl⟩
  · exact ⟨[_], rfl⟩
  · exact advance_trace hadv
  · exact ⟨[], rfl⟩
  · exact ⟨[], rfl⟩

/-- A call that has begun stays on the stack of its thread until it is answered. -/
theorem sl_stays {ssl s a s' id d t} (hr : Reachable ssl s) (h : step ssl s a = some s') (hg : (∃ g ∈ s.stk t, sl_of id d g) ∨ sl_done id d s.trace) :
    (∃ g ∈ s'.stk t, sl_of id d g) ∨ sl_done id d s'.trace := by
  rcases hg with hg | hg
  · rcases sl_next hr h t with ⟨o, f, r, rfl, hs, -, hadv⟩ | ⟨c, rfl⟩ | ⟨rfl, hs, -⟩ | ⟨hs, -⟩
    · rw [hs] at hg
      exact sl_answer hadv hs hg
    · left
      obtain ⟨g, hg, hi⟩ := hg
      refine ⟨g, ?_, hi⟩
      unfold step at h
      dsimp only at h
      split at h
      · rename_i hs; rw [hs] at hg; cases hg
      · rename_i f r hs
        rw [hs] at hg
        split at h
        · cases c <;> cases h <;> simp only [emit_stk, go_stk, if_true] <;> exact List.mem_cons_of_mem _ hg
        · cases h
    · obtain ⟨g, hg, -⟩ := hg
      rw [hs] at hg; cases hg
    · rw [hs]; exact .inl hg
  · obtain ⟨es, he⟩ := step_trace h
    rw [he]
    exact .inr (sl_done_append hg)

theorem sl_pending {ssl s} (hr : Reachable ssl s) : ∀ id d, Ev.call_send id d ∈ s.trace → ∃ t, (∃ g ∈ s.stk t, sl_of id d g) ∨ sl_done id d s.trace := by
  induction hr with
  | init => intro _ _ h; cases h
  | @step s s' a hrch hs ih =>
    intro id d hc
    have old : Ev.call_send id d ∈ s.trace → ∃ t, (∃ g ∈ s'.stk t, sl_of id d g) ∨ sl_done id d s'.trace := fun h => by
      obtain ⟨t, ht⟩ := ih id d h
      exact ⟨t, sl_stays hrch hs ht⟩
    rcases step_cases hs with ⟨t, f, rfl, hm, hf⟩ | ⟨t, d', rfl, hm⟩ | ⟨t, f, r, o, hr, hw, hadv⟩ | ⟨fl, -, -, -, rfl⟩ | ⟨fl, n, h0, -, rfl⟩
    · exact old hc
    · rcases List.mem_cons.1 hc with h | h
      · cases h
        refine ⟨t, .inl ⟨.send_check s.ids d, by simp, rfl, rfl⟩⟩
      · exact old h
    · obtain ⟨-, ⟨es, he, h1, -⟩, -⟩ := advance_late hadv hr
      rw [he] at hc
      rcases List.mem_append.1 hc with h | h
      · exact absurd rfl (h1 _ h id d)
      · exact old h
    · exact old hc
    · exact old hc

/-- C130.  Every call of `tcp_send()` is answered. -/
theorem C130_send {ssl : Bool} {e : Exec (step ssl)} (h : Live e) (n id : Nat) (d : Bytes) (hc : Ev.call_send id d ∈ (e.st n).trace) :
    ∃ m, n ≤ m ∧ (Ev.sent id d ∈ (e.st m).trace ∨ Ev.refused id ∈ (e.st m).trace) := by
  obtain ⟨t, ht⟩ := sl_pending (sl_reach h n) id d hc
  obtain ⟨m, hm, hs⟩ := C130_returns h t n
  refine ⟨m, hm, ?_⟩
  have := e.always (P := fun s => Reachable ssl s ∧ ((∃ g ∈ s.stk t, sl_of id d g) ∨ sl_done id d s.trace)) n ⟨sl_reach h n, ht⟩
    (fun s a s' hp hst => ⟨.step _ hp.1 hst, sl_stays hp.1 hst hp.2⟩) m hm
  rcases this.2 with ⟨g, hg, -⟩ | hd
  · rw [hs] at hg; cases hg
  · exact hd

end Verif.Props
