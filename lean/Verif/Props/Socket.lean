import Verif.Proofs.SocketInput
/-!
# C25, C26, C27, C28, C30, C31, C63: stream sockets

The system is `Verif.Model.Socket`: one socket, the network thread and any number of other threads, every interleaving, every
result of a system call and every behaviour of the callbacks.  `ssl` chooses between TCP and SSL sockets.
-/
namespace Verif.Props
open Verif.Socket

theorem reachable_run {ssl : Bool} {acts : List Act} : ∀ {s s' : Sys}, Reachable ssl s → run ssl s acts = some s' → Reachable ssl s' := by
  induction acts with
  | nil => intro s s' h hr; cases hr; exact h
  | cons a as ih =>
    intro s s' h hr
    simp only [run, Option.bind_eq_some_iff] at hr
    obtain ⟨m, hm, hr⟩ := hr
    exact ih (.step a h hm) hr

/-- A scenario: one thread sends `AB`, of which the kernel takes one byte; the network thread sends the rest after the socket
has become established. -/
def connectActs : List Act := [.poll ⟨false, true, false, false⟩, .take 100] ++
  [.run 0 .none, .run 0 .none, .run 0 .none, .run 0 .none, .run 0 .ok, .run 0 .none, .run 0 .none, .run 0 .none, .run 0 .none, .run 0 .none]

def sendActs : List Act := [.call 1 (.send [65, 66]), .run 1 .none, .run 1 .none, .run 1 .none, .run 1 (.io 1)]

def blockActs : List Act := [.run 1 .block]

def flushActs (n : Nat) : List Act := [.poll ⟨false, true, false, false⟩, .take n, .run 0 .none, .run 0 .none, .run 0 .none]

def demoSys : Sys := { threads := 3 }

/-- All states in the examples below are reachable. -/
theorem demo_reachable (ssl : Bool) (acts : List Act) (s : Sys) (h : run ssl demoSys acts = some s) : Reachable ssl s := reachable_run (.init 2 none) h

/-! ## C25 -/

/-- C25: whenever no thread is inside the socket's critical section, the bytes given to the kernel, followed by the bytes still
queued, are all data for which `tcp_send` returned `true`, in order, unless the connection has been abandoned. -/
theorem C25_output (ssl : Bool) (s : Sys) (h : Reachable ssl s) (ok : ¬ Aborted s.trace) (hf : ∀ t, holds s t = false) :
    kernelBytes s.trace ++ s.wq = acceptedBytes s.trace := by
  refine (output h ok).idle ?_
  rintro d w ⟨t, id, hm⟩
  have : holds s t = true := List.any_eq_true.2 ⟨_, hm, rfl⟩
  rw [hf t] at this
  exact nomatch this

/-- C25: at any time, either so, or a thread is in the middle of sending `d` directly, has sent a prefix `p` of it, and nothing is queued. -/
theorem C25_output_any_time (ssl : Bool) (s : Sys) (h : Reachable ssl s) (ok : ¬ Aborted s.trace) :
    kernelBytes s.trace ++ s.wq = acceptedBytes s.trace ∨
    ∃ t id p w, Frame.send_loop id (p ++ w) w ∈ s.stk t ∧ s.wq = [] ∧ kernelBytes s.trace = acceptedBytes s.trace ++ p := by
  by_cases hs : ∃ d w, Sending s d w
  · obtain ⟨d, w, hs⟩ := hs
    obtain ⟨h1, p, rfl, h2⟩ := (output h ok).sending d w hs
    obtain ⟨t, id, hm⟩ := hs
    exact .inr ⟨t, id, p, w, hm, h1, h2⟩
  · exact .inl ((output h ok).idle fun d w hd => hs ⟨d, w, hd⟩)

/-- Both cases occur. -/
example : ∃ s, run false demoSys (connectActs ++ sendActs ++ blockActs) = some s ∧ ¬ Aborted s.trace ∧ (∀ t, holds s t = false) ∧
    kernelBytes s.trace = [65] ∧ s.wq = [66] ∧ acceptedBytes s.trace = [65, 66] := by
  refine ⟨_, rfl, ?_, ?_, rfl, rfl, rfl⟩
  · rintro (h | h) <;> revert h <;> decide +kernel
  · intro t
    by_cases h0 : t = 0
    · subst h0; rfl
    · by_cases h1 : t = 1
      · subst h1; rfl
      · simp [holds, Sys.go, Sys.emit, h0, h1, demoSys]

example : ∃ s, run true demoSys (connectActs ++ sendActs) = some s ∧ Frame.send_loop 0 [65, 66] [66] ∈ s.stk 1 ∧ kernelBytes s.trace = [65] ∧ acceptedBytes s.trace = [] :=
  ⟨_, rfl, by decide +kernel, rfl, rfl⟩

/-! ## C26 -/

/-- C26 (partial): a call of `tcp_send` that begins after a call of `tcp_shut_down` has returned does not return `true`.  (The history lists
the latest event first, so `b` is what happened before the call.)  What is missing are calls that are in progress when `tcp_shut_down`
returns: `C26_race_loses_data` shows that they may return `true`. -/
theorem C26_refused_partial (ssl : Bool) (s : Sys) (h : Reachable ssl s) (a b : List Ev) (id : Nat) (d d' : Bytes) (r : Bool)
    (hc : s.trace = a ++ .call_send id d :: b) (hb : Ev.shut r ∈ b) : Ev.sent id d' ∉ s.trace :=
  fun hs => (late h).sent id d' hs a b d hc r hb

/-- C26: when a connection is shut down gracefully, then at that moment everything accepted has been given to the kernel, unless the
connection had been abandoned before. -/
theorem C26_drained (ssl : Bool) (s : Sys) (h : Reachable ssl s) (a b : List Ev) (hb : s.trace = a ++ .shutdown true :: b) :
    Aborted b ∨ kernelBytes b = acceptedBytes b := drained h a b hb

/-- C26: once `tcp_shut_down` has returned, the socket is closing or closed. -/
theorem C26_state (ssl : Bool) (s : Sys) (h : Reachable ssl s) (r : Bool) (hb : Ev.shut r ∈ s.trace) : s.state = .closing ∨ s.state = .closed := by
  have := shut_state h r hb
  revert this
  cases s.state <;> simp [State.rank]

def shutActs : List Act := [.call 1 .shut_down, .run 1 .none, .run 1 .none, .run 1 .none, .run 1 .none, .run 1 .none, .run 1 .none]

/-- A shutdown with output pending, then a refused send, then the rest of the output, then the end of the stream. -/
example : ∃ s, run true demoSys (connectActs ++ sendActs ++ blockActs ++ shutActs ++ [.call 1 (.send [67]), .run 1 .none] ++ flushActs 100 ++
    [.run 0 (.io 1), .run 0 .none, .run 0 .none, .run 0 .none, .run 0 .none]) = some s ∧
    s.trace.take 8 = [.shutdown true, .notify, .kernel [66], .on_writeable, .refused 1, .call_send 1 [67], .shut true, .sent 0 [65, 66]] :=
  ⟨_, rfl, rfl⟩

/-- A call that began before `tcp_shut_down` returned may be too late all the same: it returns `true`, but its data will never be sent.  The
program first tests the state and then takes the lock. -/
theorem C26_race_loses_data : ∃ s, run false demoSys (connectActs ++
    [.call 1 (.send [65]), .run 1 .none, .call 2 .shut_down, .run 2 .none, .run 2 .none, .run 2 .none, .run 2 .none, .run 2 .none, .run 2 .none, .run 1 .none, .run 1 .none]) = some s ∧
    s.trace.take 4 = [.sent 0 [65], .shut true, .shutdown true, .call_send 0 [65]] ∧ kernelBytes s.trace = [] ∧ s.state = .closed ∧ s.wq = [65] :=
  ⟨_, rfl, rfl, rfl, rfl, rfl⟩

/-! ## C27 -/

/-- C27: from any state, whatever the threads do, the state that is reported later is not before the one reported earlier. -/
theorem C27_monotone (ssl : Bool) (acts : List Act) : ∀ (s s' : Sys), run ssl s acts = some s' → s.state.rank ≤ s'.state.rank := by
  induction acts with
  | nil => intro s s' h; cases h; exact Nat.le_refl _
  | cons a as ih =>
    intro s s' h
    simp only [run, Option.bind_eq_some_iff] at h
    obtain ⟨m, hm, h⟩ := h
    exact Nat.le_trans (step_mono hm) (ih m s' h)

/-- The ranks are the order pending < established < closing < closed, and no two states are equal in it. -/
theorem C27_order : State.pending.rank < State.established.rank ∧ State.established.rank < State.closing.rank ∧
    State.closing.rank < State.closed.rank ∧ ∀ a b : State, a.rank = b.rank → a = b := by
  refine ⟨by decide, by decide, by decide, ?_⟩
  intro a b
  cases a <;> cases b <;> decide

example : ∃ s, run false demoSys (connectActs ++ sendActs ++ blockActs) = some s ∧ s.state = .established ∧
    ∃ s', run false s shutActs = some s' ∧ s'.state = .closing ∧ ∃ s'', run false s' [.call 2 .quick_shut_down, .run 2 .none, .run 2 .none] = some s'' ∧ s''.state = .closed :=
  ⟨_, rfl, rfl, _, rfl, rfl, _, rfl, rfl⟩

/-! ## C28 -/

/-- C28: the stream callbacks have been called with all bytes received, in order, each byte once. -/
theorem C28_all_shown (ssl : Bool) (s : Sys) (h : Reachable ssl s) : shownBytes s.trace = receivedBytes s.trace := shown h

/-- C28 (partial): provided that every stream callback so far removed all bytes of its buffer before it returned, each was called with all
bytes received so far minus those removed.  What is missing is the case that a callback leaves bytes in the buffer:
`C28_bytes_lost` shows that it does not hold then. -/
theorem C28_kept_partial (ssl : Bool) (s : Sys) (h : Reachable ssl s) (hp : ∀ a b, s.trace = a ++ Ev.stream_done :: b → unread b = [])
    (a b : List Ev) (d : Bytes) (e : Bool) (hc : s.trace = a ++ .stream d e :: b) : d = unread b := (input h hp).kept a b d e hc

/-- C28: between the beginning and the end of a callback, the buffer has what has been received and not been removed. -/
theorem C28_buffer_partial (ssl : Bool) (s : Sys) (h : Reachable ssl s) (hp : ∀ a b, s.trace = a ++ Ev.stream_done :: b → unread b = [])
    (e : Bool) (hc : Frame.cb_stream e ∈ s.stk 0) : s.rq = unread s.trace := (input h hp).inside ⟨e, hc⟩

def readActs : List Act := [.poll ⟨false, false, true, false⟩, .take 100, .run 0 .none, .run 0 .none, .run 0 .none]

/-- A polite history with two callbacks. -/
example : ∃ s, run false demoSys (readActs ++ [.run 0 (.data [1, 2]), .run 0 (.consume 1), .run 0 (.consume 1), .run 0 .ok, .run 0 (.data [3])]) = some s ∧
    s.trace = [.stream [3] false, .received [3], .stream_done, .consume 1, .consume 1, .stream [1, 2] false, .received [1, 2], .on_readable] ∧
    ∀ a b, s.trace = a ++ Ev.stream_done :: b → unread b = [] := by
  refine ⟨_, rfl, rfl, ?_⟩
  intro a b h
  have h : [Ev.stream [3] false, .received [3], .stream_done, .consume 1, .consume 1, .stream [1, 2] false, .received [1, 2], .on_readable] = a ++ Ev.stream_done :: b := h
  match a with
  | [] => simp at h
  | [_] => simp at h
  | [_, _] => simp at h; rw [← h.2.2]; rfl
  | x :: y :: z :: a =>
    simp at h
    have := congrArg (Ev.stream_done ∈ ·) h.2.2.2
    simp at this

/-- The stream callback leaves a byte, and is then called without it. -/
theorem C28_bytes_lost : ∃ s, run false demoSys (readActs ++ [.run 0 (.data [1, 2]), .run 0 (.consume 1), .run 0 .ok, .run 0 (.data [3])]) = some s ∧
    s.trace.take 5 = [.stream [3] false, .received [3], .stream_done, .consume 1, .stream [1, 2] false] ∧ unread (s.trace.drop 1) = [2, 3] :=
  ⟨_, rfl, rfl, rfl⟩

/-- C104: user code that is called by a socket can call the functions of the same socket, and these do not wait for the mutex of the socket, however deep the calls are nested. -/
theorem C104_own_socket (ssl : Bool) (s : Sys) (h : Reachable ssl s) (t : Nat) (f : Frame) (hf : f = .cb_connected ∨ (∃ eof, f = .cb_stream eof) ∨ f = .cb_closed) :
    (f ∈ s.stk t → free s t = true) ∧ ∀ r, s.stk t = f :: r → ∀ c, (step ssl s (.call t c)).isSome = true := by
  refine ⟨fun hm => ?_, fun r hr c => ?_⟩
  · have ht : holds s t = true := List.any_eq_true.2 ⟨f, hm, by rcases hf with rfl | ⟨e, rfl⟩ | rfl <;> rfl⟩
    refine List.all_eq_true.2 fun u _ => ?_
    by_cases hu : u = t
    · simp [hu]
    · have : holds s u = false := by
        cases e : holds s u with
        | false => rfl
        | true => exact absurd ((mutex h).2.2 u t e ht) hu
      simp [this]
  · simp only [step, hr]
    rcases hf with rfl | ⟨e, rfl⟩ | rfl <;> cases c <;> rfl

/-- Non-vacuity: the callback for received data sends an answer. -/
example : ∃ s, run false demoSys (readActs ++ [.run 0 (.data [1, 2]), .call 0 (.send [3]), .run 0 .none, .run 0 .none]) = some s ∧ s.stk 0 ≠ [] ∧ (∃ eof, Frame.cb_stream eof ∈ s.stk 0) ∧
    s.trace.take 2 = [.call_send 0 [3], .stream [1, 2] false] :=
  ⟨_, rfl, by decide +kernel, ⟨false, by decide +kernel⟩, rfl⟩

/-! ## C30 -/

/-- C30: when the network thread finishes an event that does not close the socket, the socket is subscribed for writability only
exactly if more bytes are queued than the throttle limit at this moment. -/
theorem C30_after_event (ssl : Bool) (s s' : Sys) (h : Reachable ssl s) (o : Choice) (n : Nat) (hs : s.stk 0 = [.net_fin false n])
    (hr : step ssl s (.run 0 o) = some s') : (s'.write_only = true ↔ s'.wq.length > n) ∧ s'.stk 0 = [] := by
  have e : step ssl s (.run 0 o) = advance ssl s 0 (.net_fin false n) [] o := by simp only [step, hs]; rfl
  rw [e] at hr
  rcases advance_sub hr (throttle h) with ⟨⟨es, h1, h2⟩, -⟩ | ⟨m, hm, h1, -, h3⟩
  · exfalso
    simp only [advance] at hr
    cases hr
    have h1 : (Ev.subscribed (if s.throttled ≠ decide (s.wq.length > n) then
        { s.go 0 [] with throttled := decide (s.wq.length > n), write_only := decide (s.wq.length > n) } else s.go 0 []).write_only s.wq.length n) :: s.trace = es ++ s.trace := by
      rw [← h1]; simp only [emit_trace]; split <;> rfl
    have hl := congrArg List.length h1
    cases es with
    | nil => simp at hl
    | cons x es => exact h2 _ (by simp) _ _ _ (List.cons.inj h1).1.symm
  · cases hm
    refine ⟨by rw [h1]; exact h3, ?_⟩
    simp only [advance] at hr
    cases hr
    simp only [emit_stk]
    split <;> simp

/-- C30: each subscription in the history is for writability only exactly if the number of bytes queued then exceeded the limit then,
and the present subscription is the latest one (initially for both). -/
theorem C30_history (ssl : Bool) (s : Sys) (h : Reachable ssl s) :
    (∀ wo q n, Ev.subscribed wo q n ∈ s.trace → (wo = true ↔ q > n)) ∧ s.write_only = (lastSub s.trace).getD false := subscription h

/-- Throttled with a limit of zero and one byte queued; then no longer. -/
example : ∃ s, run false demoSys (connectActs ++ sendActs ++ blockActs ++ flushActs 0 ++ [.run 0 .block, .run 0 .none, .run 0 .none, .run 0 .none]) = some s ∧
    s.write_only = true ∧ s.stk 0 = [] ∧
    ∃ s', run false s (flushActs 0 ++ [.run 0 (.io 1), .run 0 .none, .run 0 .none, .run 0 .none, .run 0 .none]) = some s' ∧ s'.stk 0 = [.net_fin false 0] ∧
    ∃ s'', step false s' (.run 0 .none) = some s'' ∧ s''.write_only = false :=
  ⟨_, rfl, rfl, rfl, _, rfl, rfl, _, rfl, rfl⟩

/-! ## C31 -/

/-- C31: no callback of any kind begins after the closed callback has begun; in particular it runs at most once. -/
theorem C31_last (ssl : Bool) (s : Sys) (h : Reachable ssl s) (a b : List Ev) (hc : s.trace = a ++ .on_closed :: b) :
    (∀ e ∈ a, e.isCallback = false) ∧ Ev.on_closed ∉ b := by
  refine ⟨(closed h).final a b hc, fun hb => ?_⟩
  obtain ⟨b1, b2, rfl⟩ := List.append_of_mem hb
  have := (closed h).final (a ++ .on_closed :: b1) b2 (by rw [hc]; simp) .on_closed (by simp)
  exact nomatch this

/-- C31: as a count. -/
theorem C31_once (ssl : Bool) (s : Sys) (h : Reachable ssl s) : s.trace.count .on_closed ≤ 1 := by
  rcases Nat.lt_or_ge 0 (s.trace.count .on_closed) with hp | hz
  · obtain ⟨a, b, hc⟩ := List.append_of_mem (List.count_pos_iff.1 hp)
    obtain ⟨h1, h2⟩ := C31_last ssl s h a b hc
    have ha : Ev.on_closed ∉ a := fun hm => nomatch h1 _ hm
    rw [hc]
    simp [List.count_append, List.count_eq_zero.2 ha, List.count_eq_zero.2 h2]
  · omega

/-- C31: after the closed callback has returned, the socket is not registered any more. -/
theorem C31_unregistered (ssl : Bool) (s : Sys) (h : Reachable ssl s) (hc : Ev.on_closed ∈ s.trace) (hi : s.stk 0 = []) :
    s.registered = false ∧ s.event = none := ⟨((closed h).after hc).2.1 hi, ((closed h).after hc).1⟩

/-- Readable and hung up at the same time; both callbacks throw. -/
example : ∃ s, run false demoSys ([.poll ⟨false, false, true, true⟩, .take 100, .run 0 .none, .run 0 .none, .run 0 .none, .run 0 (.data [1]), .run 0 .throw,
    .run 0 .none, .run 0 .none, .run 0 .none, .run 0 .none, .run 0 .throw, .run 0 .none, .run 0 .none, .run 0 .none]) = some s ∧ s.stk 0 = [] ∧
    s.trace = [.shutdown false, .on_closed, .shutdown false, .stream_done, .stream [1] false, .received [1], .on_readable] :=
  ⟨_, rfl, rfl, rfl⟩

/-! ## C63 -/

/-- C63: the callback for an established connection runs at most once, and the socket is not pending any more from then on. -/
theorem C63_connected_once (ssl : Bool) (s : Sys) (h : Reachable ssl s) :
    s.trace.count .connected ≤ 1 ∧ (Ev.connected ∈ s.trace → s.state ≠ .pending) := by
  obtain ⟨h1, h2⟩ := connected_once h
  refine ⟨h1, fun hm hp => ?_⟩
  have := h2 hm
  rw [hp] at this
  exact nomatch this

example : ∃ s, run true demoSys (connectActs ++ flushActs 5 ++ [.run 0 .none, .run 0 .none, .run 0 .none, .run 0 .none]) = some s ∧
    s.trace.count .connected = 1 ∧ s.trace.count .on_writeable = 2 := ⟨_, rfl, rfl, rfl⟩

end Verif.Props
