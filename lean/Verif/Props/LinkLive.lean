import Verif.Spec.LinkLive
import Verif.Props.SocketFlush
import Verif.Props.TcpLink
/-!
# C131: what is sent at one end of a connection is received at the other
-/
namespace Verif.Props
open Verif.Socket Verif.Live Verif.TcpLink Verif.EasyNet

/-- The network thread is going to read. -/
def rl_way (fl : Flags) (lim : Nat) (st : List Frame) : Prop :=
  st = [.net_lock fl lim] ∨ st = [.net_top fl lim] ∨ ∃ pre, st = pre ++ [.net_in fl lim]

theorem rl_way_ne {fl lim st} (h : rl_way fl lim st) : st ≠ [] := by
  rcases h with rfl | rfl | ⟨pre, rfl⟩ <;> simp

theorem rl_way_adv {ssl s t f r o s' fl lim} (h : advance ssl s t f r o = some s') (hs : s.stk t = f :: r) (hw : rl_way fl lim (f :: r)) (hi : fl.in_ = true) :
    rl_way fl lim (s'.stk t) ∨ s'.stk t = [.rd_loop, .net_hup fl lim] ∨ Ev.on_closed ∈ s'.trace := by
  rcases hw with hw | hw | ⟨pre, hw⟩
  · cases hw
    cases h
    left; right; left; simp
  · cases hw
    simp only [advance] at h
    split at h
    · cases h
      right; right; simp
    · split at h <;> cases h
      · left; right; right; exact ⟨[.wr_top], by simp⟩
      · left; right; right; exact ⟨[], by simp⟩
  · cases pre with
    | nil =>
      cases hw
      simp only [advance, hi, if_true] at h
      cases h
      right; left; simp
    | cons g pre =>
      cases hw
      obtain ⟨x, hx⟩ := sl_suffix h hs
      left; right; right
      exact ⟨x ++ pre, by rw [hx, List.append_assoc]; rfl⟩

theorem rl_way_step {ssl s a s' fl lim} (hr : Socket.Reachable ssl s) (h : Socket.step ssl s a = some s') (hw : rl_way fl lim (s.stk 0)) (hi : fl.in_ = true) :
    rl_way fl lim (s'.stk 0) ∨ s'.stk 0 = [.rd_loop, .net_hup fl lim] ∨ Ev.on_closed ∈ s'.trace := by
  rcases sl_next hr h 0 with ⟨o, f, r, rfl, hs, -, hadv⟩ | ⟨c, rfl⟩ | ⟨-, hs, -⟩ | ⟨hs, -⟩
  · rw [hs] at hw
    exact rl_way_adv hadv hs hw hi
  · left
    unfold Socket.step at h
    dsimp only at h
    split at h
    · rename_i hs; exact absurd hs (rl_way_ne hw)
    · rename_i f r hs
      split at h
      · rename_i hcb
        rw [hs] at hw
        have : ∃ pre, f :: r = pre ++ [.net_in fl lim] := by
          rcases hw with hw | hw | hw
          · cases hw; cases hcb
          · cases hw; cases hcb
          · exact hw
        obtain ⟨pre, hp⟩ := this
        right; right
        cases c <;> cases h <;> simp only [emit_stk, go_stk, if_true] <;> exact ⟨_ :: pre, by rw [hp]; rfl⟩
      · cases h
  · exact absurd hs (rl_way_ne hw)
  · rw [hs]; exact .inl hw

/-- The network thread is reading, or shuts the connection down. -/
def rl_read (fl : Flags) (lim : Nat) (st : List Frame) : Prop :=
  st = [.rd_loop, .net_hup fl lim] ∨ (∃ pre b, st = pre ++ [.cb_stream b, .net_hup fl lim]) ∨ ∃ g, st = [.quick g, .leave, .net_hup fl lim]

theorem rl_read_ne {fl lim st} (h : rl_read fl lim st) : st ≠ [] := by
  rcases h with rfl | ⟨pre, b, rfl⟩ | ⟨g, rfl⟩ <;> simp

theorem rl_read_adv {ssl s t f r o s' fl lim} (h : advance ssl s t f r o = some s') (hs : s.stk t = f :: r) (hw : rl_read fl lim (f :: r)) :
    rl_read fl lim (s'.stk t) ∨ (f = .rd_loop ∧ o = .block) ∨ ∃ g, Ev.shutdown g ∈ s'.trace := by
  rcases hw with hw | ⟨pre, b, hw⟩ | ⟨g, hw⟩
  · cases hw
    simp only [advance] at h
    split at h
    · split at h <;> cases h
      left; right; left; exact ⟨[], false, by simp⟩
    · cases h
      left; right; left; exact ⟨[], true, by simp⟩
    · exact .inr (.inl ⟨rfl, rfl⟩)
    · cases h
      left; right; right; exact ⟨false, by simp⟩
    · cases h
  · cases pre with
    | nil =>
      cases hw
      simp only [advance] at h
      split at h
      · split at h <;> cases h
        left; right; left; exact ⟨[], b, by simpa using hs⟩
      · cases h
        cases b with
        | true => left; right; right; exact ⟨false, by simp⟩
        | false => left; left; simp
      · cases h
        left; right; right; exact ⟨false, by simp⟩
      · cases h
    | cons g pre =>
      cases hw
      obtain ⟨x, hx⟩ := sl_suffix h hs
      left; right; left
      exact ⟨x ++ pre, b, by rw [hx, List.append_assoc]; rfl⟩
  · cases hw
    cases h
    right; right; exact ⟨g, by simp⟩

theorem rl_read_step {ssl s a s' fl lim} (hr : Socket.Reachable ssl s) (h : Socket.step ssl s a = some s') (hw : rl_read fl lim (s.stk 0)) :
    rl_read fl lim (s'.stk 0) ∨ (a = .run 0 .block ∧ ∃ r, s.stk 0 = .rd_loop :: r) ∨ ∃ g, Ev.shutdown g ∈ s'.trace := by
  rcases sl_next hr h 0 with ⟨o, f, r, rfl, hs, -, hadv⟩ | ⟨c, rfl⟩ | ⟨-, hs, -⟩ | ⟨hs, -⟩
  · rw [hs] at hw
    rcases rl_read_adv hadv hs hw with h1 | ⟨rfl, rfl⟩ | h1
    · exact .inl h1
    · exact .inr (.inl ⟨rfl, r, hs⟩)
    · exact .inr (.inr h1)
  · left
    unfold Socket.step at h
    dsimp only at h
    split at h
    · rename_i hs; exact absurd hs (rl_read_ne hw)
    · rename_i f r hs
      split at h
      · rename_i hcb
        rw [hs] at hw
        have : ∃ pre b, f :: r = pre ++ [.cb_stream b, .net_hup fl lim] := by
          rcases hw with hw | hw | ⟨g, hw⟩
          · cases hw; cases hcb
          · exact hw
          · cases hw; cases hcb
        obtain ⟨pre, b, hp⟩ := this
        right; left
        cases c <;> cases h <;> simp only [emit_stk, go_stk, if_true] <;> exact ⟨_ :: pre, b, by rw [hp]; rfl⟩
      · cases h
  · exact absurd hs (rl_read_ne hw)
  · rw [hs]; exact .inl hw

theorem rl_rd_shape {ssl s t r} (hr : Socket.Reachable ssl s) (hs : s.stk t = .rd_loop :: r) : t = 0 ∧ ∃ fl lim, r = [.net_hup fl lim] := by
  have := shape hr t
  rw [hs] at this
  obtain ⟨hp, hsh⟩ := this
  cases r with
  | nil => simp [Place, Frame.kind] at hp
  | cons g r =>
    cases g <;> simp [Place, Frame.kind] at hp
    · rename_i fl lim
      obtain ⟨hp2, -⟩ := hsh
      cases r with
      | nil =>
        simp [Place, Frame.kind] at hp2
        exact ⟨hp2, fl, lim, rfl⟩
      | cons g r => cases g <;> simp [Place, Frame.kind] at hp2 <;> (rename_i b _; cases b <;> simp at hp2)
    · rename_i b _; cases b <;> simp at hp

section
variable {ssl : Bool} {e : Exec (Socket.step ssl)}

/-- A report is owed or being processed. -/
def rl_J (e : Exec (Socket.step ssl)) (n : Nat) : Prop :=
  InOwed e n ∨ (∃ fl, (e.st n).event = some fl ∧ fl.in_ = true) ∨ (∃ fl lim, fl.in_ = true ∧ rl_way fl lim ((e.st n).stk 0)) ∨
    (∃ fl lim, rl_read fl lim ((e.st n).stk 0)) ∨ Ev.on_closed ∈ (e.st n).trace ∨ ∃ g, Ev.shutdown g ∈ (e.st n).trace

theorem rl_owed_poll {n fl} (ha : e.act n = some (.poll fl)) : InOwed e (n + 1) = (fl.in_ = false ∧ InOwed e n) := by simp only [InOwed, ha]
theorem rl_owed_run {n t o} (ha : e.act n = some (.run t o)) : InOwed e (n + 1) = (((∃ r, (e.st n).stk t = .rd_loop :: r) ∧ o = .block) ∨ ((¬ ∃ r, (e.st n).stk t = .rd_loop :: r) ∧ InOwed e n)) := by simp only [InOwed, ha]
theorem rl_owed_call {n t c} (ha : e.act n = some (.call t c)) : InOwed e (n + 1) = InOwed e n := by simp only [InOwed, ha]
theorem rl_owed_take {n k} (ha : e.act n = some (.take k)) : InOwed e (n + 1) = InOwed e n := by simp only [InOwed, ha]
theorem rl_owed_none {n} (ha : e.act n = none) : InOwed e (n + 1) = InOwed e n := by simp only [InOwed, ha]

theorem rl_J_read (h : Live e) {n a fl lim} (ha : e.act n = some a) (hs : Socket.step ssl (e.st n) a = some (e.st (n + 1))) (hw : rl_read fl lim ((e.st n).stk 0)) : rl_J e (n + 1) := by
  rcases rl_read_step (sl_reach h n) hs hw with h1 | ⟨rfl, h1⟩ | h1
  · exact .inr (.inr (.inr (.inl ⟨fl, lim, h1⟩)))
  · left; rw [rl_owed_run ha]; exact .inl ⟨h1, rfl⟩
  · exact .inr (.inr (.inr (.inr (.inr h1))))

theorem rl_J_all (h : Live e) (n : Nat) : rl_J e n := by
  induction n with
  | zero => exact .inl trivial
  | succ n ih =>
    rcases e.next n with ⟨ha, hs⟩ | ⟨a, ha, hs⟩
    · unfold rl_J at *
      rw [rl_owed_none ha, hs]
      exact ih
    · obtain ⟨es, he⟩ := step_trace hs
      rcases ih with ih | ⟨fl, he, ho⟩ | ⟨fl, lim, ho, hw⟩ | ⟨fl, lim, hw⟩ | ih | ⟨g, ih⟩
      · cases a with
        | call t c => exact .inl (by rw [rl_owed_call ha]; exact ih)
        | take k => exact .inl (by rw [rl_owed_take ha]; exact ih)
        | poll fl =>
          cases ho : fl.in_ with
          | false => exact .inl (by rw [rl_owed_poll ha]; exact ⟨ho, ih⟩)
          | true =>
            right; left
            simp only [Socket.step] at hs
            split at hs
            · rw [← Option.some.inj hs]; exact ⟨fl, rfl, ho⟩
            · cases hs
        | run t o =>
          by_cases hof : ∃ r, (e.st n).stk t = .rd_loop :: r
          · obtain ⟨r, hst⟩ := hof
            obtain ⟨rfl, fl, lim, rfl⟩ := rl_rd_shape (sl_reach h n) hst
            exact rl_J_read h ha hs (.inl hst)
          · exact .inl (by rw [rl_owed_run ha]; exact .inr ⟨hof, ih⟩)
      · rcases sl_step_event (sl_reach h n) hs he with h1 | ⟨lim, h1⟩
        · exact .inr (.inl ⟨fl, h1, ho⟩)
        · exact .inr (.inr (.inl ⟨fl, lim, ho, .inl h1⟩))
      · rcases rl_way_step (sl_reach h n) hs hw ho with h1 | h1 | h1
        · exact .inr (.inr (.inl ⟨fl, lim, ho, h1⟩))
        · exact .inr (.inr (.inr (.inl ⟨fl, lim, .inl h1⟩)))
        · exact .inr (.inr (.inr (.inr (.inl h1))))
      · exact rl_J_read h ha hs hw
      · exact .inr (.inr (.inr (.inr (.inl (by rw [he]; simp [ih])))))
      · exact .inr (.inr (.inr (.inr (.inr ⟨g, by rw [he]; simp [ih]⟩))))

end

section
variable {ssl : Bool} {e : Exec (linkStep ssl)}

theorem rl_reach (h : Delivers e) (n : Nat) : TcpLink.Reachable ssl (e.st n) :=
  e.always (P := TcpLink.Reachable ssl) 0 h.start (fun _ _ _ h1 h2 => .step _ _ h1 h2) n (Nat.zero_le _)

theorem rl_act {n : Nat} {x : Act} (h : e.act n = some (true, x)) : (side e true).act n = some x := by simp [side, h]

/-- If there is always something to read, then it is read again and again. -/
theorem rl_reads (h : Delivers e) {n : Nat} (hc : ∀ m, n ≤ m → Ev.on_closed ∉ (e.st m).b.trace ∧ down (e.st m).b.trace = false ∧ Avail (e.st m)) (k : Nat) (hk : n ≤ k) :
    ∃ m, k ≤ m ∧ Avail (e.st m) ∧ AtRead (e.st m) ∧ ((∃ d, e.act m = some (true, .run 0 (.data d))) ∨ e.act m = some (true, .run 0 .eof)) := by
  refine h.reads k fun k' hk' => ?_
  obtain ⟨m0, hm0, he0⟩ := C130_returns h.receiver 0 k'
  have : ∃ m2 fl lim, m0 ≤ m2 ∧ fl.in_ = true ∧ ((side e true).st m2).stk 0 = [.net_lock fl lim] := by
    rcases rl_J_all h.receiver m0 with ho | ⟨fl, hev, ho⟩ | ⟨fl, lim, -, hw⟩ | ⟨fl, lim, hw⟩ | hov | ⟨g, hov⟩
    · obtain ⟨m1, fl, hm1, hact, ho⟩ := h.polls m0 ho (fun m hm => ⟨sl_registered (inv (rl_reach h m)).b (hc m (by omega)).1, (hc m (by omega)).2⟩) (fun m _ => h.opens m)
      obtain ⟨m2, lim, hm2, hq, -⟩ := sl_taken h.receiver (rl_act hact)
      exact ⟨m2, fl, lim, by omega, ho, hq⟩
    · obtain ⟨m2, lim, hm2, hq⟩ := sl_take h.receiver ⟨hev, he0⟩
      exact ⟨m2, fl, lim, hm2, ho, hq⟩
    · exact absurd he0 (rl_way_ne hw)
    · exact absurd he0 (rl_read_ne hw)
    · exact absurd hov (hc m0 (by omega)).1
    · have := (hc m0 (by omega)).2.1
      rw [down_mem.2 ⟨g, show Ev.shutdown g ∈ (e.st m0).b.trace from hov⟩] at this
      cases this
  obtain ⟨m2, fl, lim, hm2, hi, hq⟩ := this
  obtain ⟨m3, hm3, he3⟩ := C130_returns h.receiver 0 m2
  apply Classical.byContradiction
  intro hno
  have : ∀ j, m2 ≤ j → rl_way fl lim (((side e true).st j).stk 0) := by
    intro j hj
    induction j with
    | zero => have : m2 = 0 := by omega
              subst this; exact .inl hq
    | succ j ih =>
      by_cases hn : m2 = j + 1
      · subst hn; exact .inl hq
      · have ih := ih (by omega)
        rcases (side e true).next j with ⟨-, hs⟩ | ⟨a, ha, hs⟩
        · rw [hs]; exact ih
        · rcases rl_way_step (sl_reach h.receiver j) hs ih hi with h1 | h1 | h1
          · exact h1
          · exact absurd ⟨j + 1, by omega, (hc (j + 1) (by omega)).2.2, _, h1⟩ hno
          · exact absurd h1 (hc (j + 1) (by omega)).1
  exact rl_way_ne (this m3 hm3) he3

/-- Reading takes something off the stream, or tells about its end. -/
theorem rl_step_b {w w' : World} {o : Choice} (hr : TcpLink.Reachable ssl w) (hd : AtRead w) (ho : (∃ d, o = .data d) ∨ o = .eof) (h : linkStep ssl w (true, .run 0 o) = some w') :
    (receivedBytes w.b.trace).length < (receivedBytes w'.b.trace).length ∨ ∃ d, Ev.stream d true ∈ w'.b.trace := by
  have hb := step_end (b := true) h
  rw [if_pos rfl] at hb
  obtain ⟨r, hs⟩ := hd
  change Socket.step ssl w.b (.run 0 o) = some w'.b at hb
  rcases ho with ⟨d, rfl⟩ | rfl
  · left
    simp only [Socket.step, hs, Frame.waits, Bool.false_and, Bool.false_eq_true, if_false, advance] at hb
    split at hb
    · cases hb
    · rename_i hne
      rw [← Option.some.inj hb]
      simp only [emit_trace, go_trace, receivedBytes, List.length_append]
      have : d.length ≠ 0 := fun h0 => hne (List.length_eq_zero_iff.1 h0)
      omega
  · right
    simp only [Socket.step, hs, Frame.waits, Bool.false_and, Bool.false_eq_true, if_false, advance] at hb
    rw [← Option.some.inj hb]
    exact ⟨[], by simp⟩

theorem rl_received_append (es tr : List Ev) : receivedBytes (es ++ tr) = receivedBytes tr ++ receivedBytes es := by
  induction es with
  | nil => simp [receivedBytes]
  | cons e es ih => cases e <;> simp [receivedBytes, ih]

theorem rl_received_mono (e : Exec (linkStep ssl)) {n m : Nat} (hm : n ≤ m) : receivedBytes (e.st n).b.trace <+: receivedBytes (e.st m).b.trace := by
  obtain ⟨es, he⟩ := sl_trace_mono (side e true) hm
  change (e.st m).b.trace = es ++ (e.st n).b.trace at he
  rw [he, rl_received_append]
  exact List.prefix_append _ _

theorem rl_kernel_mono (e : Exec (linkStep ssl)) {n m : Nat} (hm : n ≤ m) : kernelBytes (e.st n).a.trace <+: kernelBytes (e.st m).a.trace := by
  obtain ⟨es, he⟩ := sl_trace_mono (side e false) hm
  change (e.st m).a.trace = es ++ (e.st n).a.trace at he
  rw [he, sl_kernel_append]
  exact List.prefix_append _ _

/-- If nothing ends this, more than any number of bytes that has been sent is received, or the end is seen. -/
theorem rl_grows (h : Delivers e) {n : Nat} (hc : ∀ m, n ≤ m → Ev.on_closed ∉ (e.st m).b.trace ∧ down (e.st m).b.trace = false ∧ Avail (e.st m)) (L : Nat) :
    ∃ m, n ≤ m ∧ (L ≤ (receivedBytes (e.st m).b.trace).length ∨ ∃ d, Ev.stream d true ∈ (e.st m).b.trace) := by
  have key : ∀ b j, n ≤ j → L - (receivedBytes (e.st j).b.trace).length ≤ b → ∃ m, n ≤ m ∧ (L ≤ (receivedBytes (e.st m).b.trace).length ∨ ∃ d, Ev.stream d true ∈ (e.st m).b.trace) := by
    intro b
    induction b with
    | zero => intro j hj hb; exact ⟨j, hj, .inl (by omega)⟩
    | succ b ih =>
      intro j hj hb
      obtain ⟨m, hm, -, hr, ha⟩ := rl_reads h hc j hj
      have ha : ∃ o, ((∃ d, o = Choice.data d) ∨ o = .eof) ∧ e.act m = some (true, .run 0 o) := by
        rcases ha with ⟨d, ha⟩ | ha
        · exact ⟨_, .inl ⟨d, rfl⟩, ha⟩
        · exact ⟨_, .inr rfl, ha⟩
      obtain ⟨o, ho, ha⟩ := ha
      rcases e.next m with ⟨ha', -⟩ | ⟨a', ha', hst⟩
      · rw [ha] at ha'; cases ha'
      · rw [ha] at ha'; cases ha'
        have := (rl_received_mono e hm).length_le
        rcases rl_step_b (rl_reach h m) hr ho hst with h1 | h1
        · exact ih (m + 1) (by omega) (by omega)
        · exact ⟨m + 1, by omega, .inr h1⟩
  exact key _ n (Nat.le_refl _) (Nat.le_refl _)

theorem rl_shut_first {tr : List Ev} (hs : ∀ d, Ev.stream d true ∉ tr) (hn : ¬ ShutFirst tr) : down tr = false := by
  cases hd : down tr with
  | false => rfl
  | true =>
    obtain ⟨g, hg⟩ := down_mem.1 hd
    obtain ⟨x, y, rfl⟩ := List.append_of_mem hg
    exact absurd ⟨x, g, y, rfl, fun d hm => hs d (by simp [hm])⟩ hn

/-- C131.  All data that `tcp_send()` has accepted at one end, before this end has been shut down, are passed to the stream callback at the other end eventually, unless the connection is abandoned by the
sender, or shut down by the receiver before it has seen the end of the stream, or closed. -/
theorem C131_delivers (h : Delivers e) (n : Nat) (hn : Ev.shutdown true ∉ (e.st n).a.trace) (r : Bytes) :
    ∃ m, n ≤ m ∧ (acceptedBytes (e.st n).a.trace <+: bytes (reports r (e.st m).b.trace) ∨ Aborted (e.st m).a.trace ∨ ShutFirst (e.st m).b.trace ∨ Ev.on_closed ∈ (e.st m).a.trace ∨ Ev.on_closed ∈ (e.st m).b.trace) := by
  obtain ⟨m1, hm1, hf | hf | hf⟩ := C130_flushes h.sender n hn
  · change acceptedBytes (e.st n).a.trace <+: kernelBytes (e.st m1).a.trace at hf
    apply Classical.byContradiction
    intro hno
    have hlt : ∀ m, m1 ≤ m → (receivedBytes (e.st m).b.trace).length < (kernelBytes (e.st m1).a.trace).length := by
      intro m hm
      apply Classical.byContradiction
      intro hge
      refine hno ⟨m, by omega, .inl ?_⟩
      rw [C116_data ssl r _ (inv (rl_reach h m)).b]
      refine hf.trans (List.prefix_of_prefix_length_le (rl_kernel_mono e hm) ⟨_, (inv (rl_reach h m)).ab.bytes⟩ (by omega))
    have hav : ∀ m, m1 ≤ m → (e.st m).ab ≠ [] := by
      intro m hm h0
      have hb := (inv (rl_reach h m)).ab.bytes
      rw [h0, List.append_nil] at hb
      have h1 := hlt m hm
      have h2 := (rl_kernel_mono e hm).length_le
      rw [hb] at h1
      omega
    have hsf : ∀ m, m1 ≤ m → ¬ ShutFirst (e.st m).b.trace := fun m hm hx => hno ⟨m, by omega, .inr (.inr (.inl hx))⟩
    have hne : ∀ m, m1 ≤ m → ∀ d, Ev.stream d true ∉ (e.st m).b.trace := fun m hm d hd => hav m hm (((inv (rl_reach h m)).ab.over d hd).resolve_right (hsf m hm)).1
    obtain ⟨m, hm, h1 | ⟨d, hd⟩⟩ := rl_grows h (n := m1) (fun m hm => ⟨fun hc => hno ⟨m, by omega, .inr (.inr (.inr (.inr hc)))⟩, rl_shut_first (hne m hm) (hsf m hm), .inl (hav m hm)⟩) (kernelBytes (e.st m1).a.trace).length
    · have := hlt m hm; omega
    · exact hne m hm d hd
  · exact ⟨m1, hm1, .inr (.inl hf)⟩
  · exact ⟨m1, hm1, .inr (.inr (.inr (.inl hf)))⟩

theorem rl_told {r : Bytes} {d : Bytes} {tr : List Ev} (h : Ev.stream d true ∈ tr) : In.eof ∈ reports r tr :=
  List.mem_filterMap.2 ⟨_, List.mem_reverse.2 h, rfl⟩

/-- C131.  After `tcp_shut_down()` has returned `true` at one end, the user at the other end is told about the end of the stream eventually, unless the connection is abandoned by the sender, or shut down
by the receiver before, or closed.  (By `C117_end`, they have got all data then.) -/
theorem C131_end (h : Delivers e) (n : Nat) (r : Bytes) (hn : Ev.shut true ∈ (e.st n).a.trace) :
    ∃ m, n ≤ m ∧ (In.eof ∈ reports r (e.st m).b.trace ∨ Aborted (e.st m).a.trace ∨ ShutFirst (e.st m).b.trace ∨ Ev.on_closed ∈ (e.st m).a.trace ∨ Ev.on_closed ∈ (e.st m).b.trace) := by
  obtain ⟨m1, hm1, hf | hf | hf⟩ := C130_shuts h.sender n hn
  · change Ev.shutdown true ∈ (e.st m1).a.trace at hf
    apply Classical.byContradiction
    intro hno
    have hdown : ∀ m, m1 ≤ m → ∃ x y, (e.st m).a.trace = x ++ .shutdown true :: y ∧ (kernelBytes (e.st m).a.trace).length ≤ (kernelBytes (e.st m1).a.trace).length := by
      intro m hm
      obtain ⟨y, z, hyz⟩ := List.append_of_mem hf
      obtain ⟨es, he⟩ := sl_trace_mono (side e false) hm
      change (e.st m).a.trace = es ++ (e.st m1).a.trace at he
      have heq : (e.st m).a.trace = (es ++ y) ++ .shutdown true :: z := by rw [he, hyz, List.append_assoc]
      refine ⟨_, _, heq, ?_⟩
      have hk := (inv (rl_reach h m)).ab.stop _ _ _ heq
      rw [hk, hyz, sl_kernel_append, List.length_append]
      simp only [kernelBytes]
      omega
    have hne : ∀ m, m1 ≤ m → ∀ d, Ev.stream d true ∉ (e.st m).b.trace := fun m hm d hd => hno ⟨m, by omega, .inl (rl_told hd)⟩
    have hsf : ∀ m, m1 ≤ m → ¬ ShutFirst (e.st m).b.trace := fun m hm hx => hno ⟨m, by omega, .inr (.inr (.inl hx))⟩
    obtain ⟨m, hm, h1 | ⟨d, hd⟩⟩ := rl_grows h (n := m1) (fun m hm => ⟨fun hc => hno ⟨m, by omega, .inr (.inr (.inr (.inr hc)))⟩, rl_shut_first (hne m hm) (hsf m hm), .inr ⟨by
      obtain ⟨x, y, hxy, -⟩ := hdown m hm
      exact down_mem.2 ⟨true, by rw [hxy]; simp⟩, hne m hm⟩⟩) ((kernelBytes (e.st m1).a.trace).length + 1)
    · have hb := congrArg List.length (inv (rl_reach h m)).ab.bytes
      rw [List.length_append] at hb
      obtain ⟨-, -, -, hk⟩ := hdown m hm
      omega
    · exact hne m hm d hd
  · exact ⟨m1, hm1, .inr (.inl hf)⟩
  · exact ⟨m1, hm1, .inr (.inr (.inr (.inl hf)))⟩

end

def rlRun : List (Bool × Act) := linkActs ++ List.replicate 5 (true, .run 0 .none) ++ List.replicate 3 (false, .run 0 .none)

def rlExec : Exec (linkStep false) := Exec.ofRun linkDemo rlRun (by decide +kernel)

theorem rlExec_reach (n : Nat) : TcpLink.Reachable false (rlExec.st n) :=
  rlExec.always (P := TcpLink.Reachable false) 0 (.init 2 2 none none) (fun _ _ _ h1 h2 => .step _ _ h1 h2) n (Nat.zero_le _)

def rlQuiet (s : Sys) : Bool := decide (s.threads = 3 ∧ s.stk 0 = [] ∧ s.stk 1 = [] ∧ s.stk 2 = [] ∧ s.event = none ∧ (kernelBytes s.trace).length = (acceptedBytes s.trace).length)

theorem rlQuiet_iff {ssl s} (hr : Socket.Reachable ssl s) (h : rlQuiet s = true) : (∀ t, s.stk t = []) ∧ s.event = none ∧ (kernelBytes s.trace).length = (acceptedBytes s.trace).length := by
  obtain ⟨h1, h2, h3, h4, h5, h6⟩ := of_decide_eq_true h
  refine ⟨fun t => ?_, h5, h6⟩
  match t with
  | 0 => exact h2
  | 1 => exact h3
  | 2 => exact h4
  | t + 3 => exact (mutex hr).1 _ (by omega)

theorem rlExec_end {n : Nat} (hn : 76 ≤ n) : rlQuiet (rlExec.st n).a = true ∧ rlQuiet (rlExec.st n).b = true ∧ (rlExec.st n).ab = [] ∧ (∃ d, Ev.stream d true ∈ (rlExec.st n).b.trace) ∧ (rlExec.st n).b.write_only = false := by
  have h := Exec.ofRun_end (step := linkStep false) linkDemo rlRun (by decide +kernel) n hn
  have : ((runs (linkStep false) linkDemo rlRun).all fun w => decide (rlQuiet w.a = true ∧ rlQuiet w.b = true ∧ w.ab = [] ∧ Ev.stream [] true ∈ w.b.trace ∧ w.b.write_only = false)) = true := by decide +kernel
  rw [← h] at this
  obtain ⟨h1, h2, h3, h4, h5⟩ := of_decide_eq_true this
  exact ⟨h1, h2, h3, ⟨_, h4⟩, h5⟩

theorem rl_live {e : Exec (Socket.step false)} (k : Nat) (hs : Socket.Reachable false (e.st 0)) (hq : ∀ n, k ≤ n → rlQuiet (e.st n) = true) : Writeable e := by
  have hr : ∀ n, Socket.Reachable false (e.st n) := fun n => e.always (P := Socket.Reachable false) 0 hs (fun _ _ _ h1 h2 => .step _ h1 h2) n (Nat.zero_le _)
  have hq : ∀ n, k ≤ n → _ := fun n hn => rlQuiet_iff (hr n) (hq n hn)
  constructor
  · constructor
    · exact hs
    · intro t n h
      obtain ⟨j, hj, a, ⟨o, rfl⟩, he⟩ := h (n + k) (by omega)
      simp [Socket.step, (hq j (by omega)).1 t] at he
    · intro n h
      obtain ⟨j, hj, a, ⟨o, rfl⟩, he⟩ := h (n + k) (by omega)
      simp [Socket.step, (hq j (by omega)).2.1] at he
    · intro t n h
      exact absurd ((hq (n + k) (by omega)).1 t) (h _ (by omega))
  · intro n _ h
    have h1 := (h (n + k) (by omega)).2.2
    have h2 := (hq (n + k) (by omega)).2.2
    omega
  · intro n h
    obtain ⟨j, hj, -, r, hr⟩ := h (n + k) (by omega)
    rw [(hq j (by omega)).1 0] at hr
    cases hr

theorem rlExec_delivers : Delivers rlExec where
  start := .init 2 2 none none
  sender := rl_live 76 (.init 2 none) fun _ hn => (rlExec_end hn).1
  receiver := (rl_live 76 (.init 2 none) fun _ hn => (rlExec_end hn).2.1).toLive
  opens n := ⟨n + 76, by omega, (rlExec_end (by omega)).2.2.2.2⟩
  polls n _ h _ := by
    obtain ⟨-, -, h3, ⟨d, h4⟩, -⟩ := rlExec_end (n := n + 76) (by omega)
    rcases (h (n + 76) (by omega)).2.2 with h1 | ⟨-, h1⟩
    · exact absurd h3 h1
    · exact absurd h4 (h1 d)
  reads n h := by
    obtain ⟨k, hk, h1, -⟩ := h (n + 76) (by omega)
    obtain ⟨-, -, h3, ⟨d, h4⟩, -⟩ := rlExec_end (n := k) (by omega)
    rcases h1 with h1 | ⟨-, h1⟩
    · exact absurd h3 h1
    · exact absurd h4 (h1 d)

/- At time 37, three bytes have been accepted, two of which are on their way, and `tcp_shut_down()` has returned; in the end all have been received, and the end of the stream has been seen.  Nothing has been closed or abandoned. -/
example : Delivers rlExec ∧ acceptedBytes (rlExec.st 37).a.trace = [1, 2, 3] ∧ (rlExec.st 37).ab = [1, 2] ∧ .shut true ∈ (rlExec.st 37).a.trace ∧ .shutdown true ∉ (rlExec.st 37).a.trace ∧ reports (b! "bye") (rlExec.st 37).b.trace = [.connected] ∧
    reports (b! "bye") (rlExec.st 76).b.trace = [.connected, .read [1], .read [2], .read [3], .eof] ∧ Ev.on_closed ∉ (rlExec.st 76).a.trace ∧ Ev.on_closed ∉ (rlExec.st 76).b.trace ∧ Ev.write_error ∉ (rlExec.st 76).a.trace ∧ Ev.shutdown false ∉ (rlExec.st 76).a.trace :=
  ⟨rlExec_delivers, by decide +kernel, by decide +kernel, by decide +kernel, by decide +kernel, by decide +kernel, by decide +kernel, by decide +kernel, by decide +kernel, by decide +kernel, by decide +kernel⟩

end Verif.Props
