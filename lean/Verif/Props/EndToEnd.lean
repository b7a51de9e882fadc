import Verif.Spec.EndToEnd
import Verif.Props.LinkLive
import Verif.Props.EasyNetLive
/-!
# C132: what is sent at one end of a connection gets to the callback of the easy server or client at the other
-/
namespace Verif.Props
open Verif.Socket Verif.Live Verif.TcpLink Verif.EasyNet
open Verif.Easy (received handled Lost)

section
variable {ssl : Bool} {e : Exec (linkStep ssl)}

/-- C132 (part).  Data that have been accepted by `tcp_send()` at one end, before the connection is shut down there, are passed to the callback of the `Easy_TCP_Server` or `Easy_TCP_Client` at the other, in order and
without gaps, unless the connection is abandoned or closed, or events are lost (which is the part that is missing, see `C39_reuse`). -/
theorem C132_callback_partial (h : Delivers e) {f : Exec (EasyNet.step (C := EasyStream.tcp))} (hf : EasyNet.Fairly f) (hcare : (f.st 0).easy.careful = true) {i : Nat} {r : Bytes} (hu : Uses f i e r)
    (n : Nat) (hn : Ev.shutdown true ∉ (e.st n).a.trace) :
    ∃ m k, n ≤ m ∧ (acceptedBytes (e.st n).a.trace <+: received (f.st k).easy.trace i ∨ Lost (f.st k).easy.trace i ∨ Broken (e.st m)) := by
  obtain ⟨m, hm, hd | hb⟩ := C131_delivers h n hn r
  · obtain ⟨k, hi, hin⟩ := hu m
    obtain ⟨k', -, hk | hk⟩ := C129_stream_partial hf hcare hi
    · rw [hin] at hk
      exact ⟨m, k', hm, .inl (hd.trans hk.2)⟩
    · exact ⟨m, k', hm, .inr (.inl hk)⟩
  · exact ⟨m, 0, hm, .inr (.inr hb)⟩

/-- C132 (part).  If `tcp_shut_down()` has returned at one end, then the callback at the other is told about the end of the stream, under the same conditions. -/
theorem C132_end_partial (h : Delivers e) {f : Exec (EasyNet.step (C := EasyStream.tcp))} (hf : EasyNet.Fairly f) (hcare : (f.st 0).easy.careful = true) {i : Nat} {r : Bytes} (hu : Uses f i e r)
    (n : Nat) (hn : Ev.shut true ∈ (e.st n).a.trace) :
    ∃ m k, n ≤ m ∧ (EasyNet.shown .eof ∈ handled (f.st k).easy.trace i ∨ Lost (f.st k).easy.trace i ∨ Broken (e.st m)) := by
  obtain ⟨m, hm, hd | hb⟩ := C131_end h n r hn
  · obtain ⟨k, hi, hin⟩ := hu m
    obtain ⟨k', -, hk | hk⟩ := C129_stream_partial hf hcare hi
    · rw [hin] at hk
      exact ⟨m, k', hm, .inl (hk.1.subset (List.mem_map_of_mem hd))⟩
    · exact ⟨m, k', hm, .inr (.inl hk)⟩
  · exact ⟨m, 0, hm, .inr (.inr hb)⟩

/-- What has been told is all that is sent, and the end comes after it. -/
theorem ee_sends (h : Delivers e) {r w : Bytes} {n m : Nat} (hw : acceptedBytes (e.st n).a.trace = w) (hk : ∀ m, kernelBytes (e.st m).a.trace <+: w)
    (hd : acceptedBytes (e.st n).a.trace <+: bytes (reports r (e.st m).b.trace)) (nf : ¬ ShutFirst (e.st m).b.trace) :
    bytes (reports r (e.st m).b.trace) = w ∧ Sends w (reports r (e.st m).b.trace) := by
  have hi := inv (rl_reach h m)
  have h1 : bytes (reports r (e.st m).b.trace) <+: w := by
    rw [C116_data ssl r _ hi.b]
    exact List.IsPrefix.trans ⟨_, hi.ab.bytes⟩ (hk m)
  have h2 := h1.eq_of_length (Nat.le_antisymm h1.length_le (hw ▸ hd.length_le))
  exact ⟨h2, h1, fun a b hab => (C117_last (rl_reach h m) nf r a b hab).trans h2⟩

theorem ee_connected {M : Type} [DecidableEq M] {C : Class M} {f : Exec (EasyNet.step (C := C))} (hf : EasyNet.Fairly f) (hcare : (f.st 0).easy.careful = true) {i k : Nat} (hb : bytes ((f.st k).input i) ≠ []) :
    .connected ∈ (f.st k).input i := by
  have hca : (f.st k).easy.careful = true := (es_later (e := en_exec f) i (Nat.zero_le k)).careful.trans hcare
  have ho := (ninv (en_reach hf k) hca).ordered i
  have : ∃ d, In.read d ∈ (f.st k).input i := by
    apply Classical.byContradiction
    intro hno
    apply hb
    unfold bytes
    rw [List.flatMap_eq_nil_iff]
    intro x hx
    cases x with
    | read d => exact absurd ⟨d, hx⟩ hno
    | _ => rfl
  obtain ⟨d, hd⟩ := this
  obtain ⟨a, b, hab⟩ := List.append_of_mem hd
  have h1 := ho a _ b hab
  simp only [admits, Bool.and_eq_true, List.contains_iff_mem] at h1
  rw [hab]
  exact List.mem_append_left _ h1.1.2

/-- C132 (part).  If good requests, and nothing else, are sent with `tcp_send()` in whatever calls at one end, then the callback of the `Easy_HTTP_Server` at the other is called for the opening of the session and
for each of the requests, under the same conditions. -/
theorem C132_requests_partial (c : HttpRequest.Cfg) (L : HttpLib.Lib) (body : L.σ → Prop) (hL : Spec.LibOk L body) (junk : List HttpServer.Ev → Easy.Ty) (rs : List Spec.Request) (st : L.σ)
    (hr : Spec.Conversation L c L.init rs st) (hx : ∀ r ∈ rs, r.headers.is_proxy = false) (he : L.eof st = (st, .go)) (hne : rs.flatMap Spec.Request.wire ≠ [])
    (h : Delivers e) {f : Exec (EasyNet.step (C := EasyHttp.server c L junk))} (hf : EasyNet.Fairly f) (hcare : (f.st 0).easy.careful = true) {i : Nat} {r : Bytes} (hu : Uses f i e r)
    (n : Nat) (hn : Ev.shutdown true ∉ (e.st n).a.trace) (hw : acceptedBytes (e.st n).a.trace = rs.flatMap Spec.Request.wire) (hk : ∀ m, kernelBytes (e.st m).a.trace <+: rs.flatMap Spec.Request.wire) :
    ∃ m k, n ≤ m ∧ (EasyHttp.opened :: rs.map EasyHttp.asked <+: handled (f.st k).easy.trace i ∨ Lost (f.st k).easy.trace i ∨ Broken (e.st m)) := by
  obtain ⟨m, hm, hd | hb⟩ := C131_delivers h n hn r
  · by_cases nf : ShutFirst (e.st m).b.trace
    · exact ⟨m, 0, hm, .inr (.inr (.inr (.inl nf)))⟩
    · obtain ⟨h1, h2⟩ := ee_sends h hw hk hd nf
      obtain ⟨k, hi, hin⟩ := hu m
      rw [← hin] at h1 h2
      obtain ⟨k', -, hk | hk⟩ := C129_requests_partial c L body hL junk rs st hr hx he hf hcare hi h2 (ee_connected hf hcare (by rw [h1]; exact hne)) h1
      · exact ⟨m, k', hm, .inl hk⟩
      · exact ⟨m, k', hm, .inr (.inl hk)⟩
  · exact ⟨m, 0, hm, .inr (.inr hb)⟩

/-- C132 (part).  Likewise for good responses and the callback of an `Easy_HTTP_Client`. -/
theorem C132_responses_partial (c : HttpRequest.Cfg) (L : HttpLib.Lib) (body : L.σ → Prop) (hL : Spec.Client.ReplyLib L body) (rs : List Spec.Client.Response) (st : L.σ)
    (hr : Verif.Spec.Client.Conversation L c (fun _ => false) 0 L.init rs st) (he : L.eof st = (st, .go)) (hne : rs.flatMap Spec.Client.Response.wire ≠ [])
    (h : Delivers e) {f : Exec (EasyNet.step (C := EasyHttp.client c L))} (hf : EasyNet.Fairly f) (hcare : (f.st 0).easy.careful = true) {i : Nat} {r : Bytes} (hu : Uses f i e r)
    (n : Nat) (hn : Ev.shutdown true ∉ (e.st n).a.trace) (hw : acceptedBytes (e.st n).a.trace = rs.flatMap Spec.Client.Response.wire) (hk : ∀ m, kernelBytes (e.st m).a.trace <+: rs.flatMap Spec.Client.Response.wire) :
    ∃ m k, n ≤ m ∧ (EasyHttp.connected :: rs.map EasyHttp.answered <+: handled (f.st k).easy.trace i ∨ Lost (f.st k).easy.trace i ∨ Broken (e.st m)) := by
  obtain ⟨m, hm, hd | hb⟩ := C131_delivers h n hn r
  · by_cases nf : ShutFirst (e.st m).b.trace
    · exact ⟨m, 0, hm, .inr (.inr (.inr (.inl nf)))⟩
    · obtain ⟨h1, h2⟩ := ee_sends h hw hk hd nf
      obtain ⟨k, hi, hin⟩ := hu m
      rw [← hin] at h1 h2
      obtain ⟨k', -, hk | hk⟩ := C129_responses_partial c L body hL rs st hr he hf hcare hi h2 (ee_connected hf hcare (by rw [h1]; exact hne)) h1
      · exact ⟨m, k', hm, .inl hk⟩
      · exact ⟨m, k', hm, .inr (.inl hk)⟩
  · exact ⟨m, 0, hm, .inr (.inr hb)⟩

end

/-! ## Examples -/

/-- `w` is sent at one end, which is then shut down, and is read in two pieces at the other. -/
def eeRun (w x y : Bytes) : List (Bool × Socket.Act) :=
  (connectActs.map (false, ·)) ++ (connectActs.map (true, ·)) ++
  (([.call 1 (.send w), .run 1 .none, .run 1 .none, .run 1 .none, .run 1 (.io w.length), .run 1 .none, .call 1 .shut_down, .run 1 .none, .run 1 .none, .run 1 .none, .run 1 .none, .run 1 .none, .run 1 .none] : List Socket.Act).map (false, ·)) ++
  ((readActs ++ [Socket.Act.run 0 (.data x), .run 0 .ok, .run 0 (.data y), .run 0 .ok, .run 0 .eof, .run 0 .ok, .run 0 .none, .run 0 .none, .run 0 .none, .run 0 .none, .run 0 .none]).map (true, ·))

/-- At the end of a run of the connection, nothing is left to do. -/
def ee_quiet (w : World) : Bool := decide (rlQuiet w.a = true ∧ rlQuiet w.b = true ∧ w.ab = [] ∧ Ev.stream [] true ∈ w.b.trace ∧ w.b.write_only = false)

def eeExec (as : List (Bool × Socket.Act)) (h : (runs (linkStep false) linkDemo as).any ee_quiet = true) : Exec (linkStep false) :=
  Exec.ofRun linkDemo as (by
    cases hr : runs (linkStep false) linkDemo as with
    | none => rw [hr] at h; cases h
    | some _ => rfl)

theorem eeExec_delivers (as : List (Bool × Socket.Act)) (h : (runs (linkStep false) linkDemo as).any ee_quiet = true) : Delivers (eeExec as h) := by
  have fin : ∀ n, as.length ≤ n → rlQuiet ((eeExec as h).st n).a = true ∧ rlQuiet ((eeExec as h).st n).b = true ∧ ((eeExec as h).st n).ab = [] ∧ Ev.stream [] true ∈ ((eeExec as h).st n).b.trace ∧
      ((eeExec as h).st n).b.write_only = false := by
    intro n hn
    have h1 := h
    rw [← Exec.ofRun_end (step := linkStep false) linkDemo as (by
      cases hr : runs (linkStep false) linkDemo as with
      | none => rw [hr] at h; cases h
      | some _ => rfl) n hn] at h1
    exact of_decide_eq_true h1
  have hno : ∀ n, as.length ≤ n → ¬ Avail ((eeExec as h).st n) := by
    intro n hn ha
    obtain ⟨-, -, h3, h4, -⟩ := fin n hn
    rcases ha with h1 | ⟨-, h1⟩
    · exact h1 h3
    · exact h1 [] h4
  exact {
    start := .init 2 2 none none
    sender := rl_live as.length (.init 2 none) fun _ hn => (fin _ hn).1
    receiver := (rl_live as.length (.init 2 none) fun _ hn => (fin _ hn).2.1).toLive
    opens := fun n => ⟨n + as.length, by omega, (fin _ (by omega)).2.2.2.2⟩
    polls := fun n _ h _ => absurd (h (n + as.length) (by omega)).2.2 (hno _ (by omega))
    reads := fun n h => by
      obtain ⟨k, hk, h1, -⟩ := h (n + as.length) (by omega)
      exact absurd h1 (hno k (by omega)) }

/-- Whatever the socket tells in the course of a run has happened to the session at one of the times `ks`. -/
def ee_uses {M : Type} [DecidableEq M] {C : Class M} (f : Exec (EasyNet.step (C := C))) (i : Nat) (e : Exec (linkStep false)) (r : Bytes) (n : Nat) (ks : List Nat) : Bool :=
  (List.range (n + 1)).all fun m => ks.any fun k => decide (i < (f.st k).easy.count) && (f.st k).input i == reports r (e.st m).b.trace

theorem ee_uses_ok {M : Type} [DecidableEq M] {C : Class M} (f : Exec (EasyNet.step (C := C))) (i : Nat) (as : List (Bool × Socket.Act)) (h : (runs (linkStep false) linkDemo as).any ee_quiet = true) (r : Bytes)
    (ks : List Nat) (hu : ee_uses f i (eeExec as h) r as.length ks = true) : Uses f i (eeExec as h) r := by
  have hm : ∀ m, m ≤ as.length → ∃ k, i < (f.st k).easy.count ∧ (f.st k).input i = reports r ((eeExec as h).st m).b.trace := by
    intro m hm
    have := List.all_eq_true.1 hu m (List.mem_range.2 (by omega))
    obtain ⟨k, -, hk⟩ := List.any_eq_true.1 this
    simp only [Bool.and_eq_true, decide_eq_true_eq, beq_iff_eq] at hk
    exact ⟨k, hk⟩
  intro m
  by_cases hle : m ≤ as.length
  · exact hm m hle
  · have : (eeExec as h).st m = (eeExec as h).st as.length := by
      show (runs (linkStep false) linkDemo (as.take m)).getD _ = (runs (linkStep false) linkDemo (as.take as.length)).getD _
      rw [List.take_of_length_le (by omega), List.take_length]
    rw [this]
    exact hm _ (Nat.le_refl _)

def eeStream : List (NAct Bool) :=
  [.easy (.accept 100), .socket 0 .connected, .push .no, .easy (.resume 0), .easy (.loop 0), .socket 0 (.read [1]), .easy (.back 0 0), .push .no, .socket 0 (.read [2, 3]), .push .no, .socket 0 .eof, .push .no,
    .easy (.loop 0), .easy (.back 0 1), .easy (.loop 0), .easy (.back 0 2), .easy (.loop 0), .easy (.back 0 0), .easy (.loop 0)]

theorem eeStream_ok : (runs (EasyNet.step (C := EasyStream.tcp)) { easy := { careful := true } } eeStream).any en_quiet = true := by decide +kernel

theorem eeLink_ok : (runs (linkStep false) linkDemo (eeRun [1, 2, 3] [1] [2, 3])).any ee_quiet = true := by decide +kernel

/- After 30 steps, three bytes have been accepted and none has been read; after 31 steps `tcp_shut_down()` has been called, and after 37 it has returned.  In the end, all has arrived at the callback, and nothing is broken or lost. -/
example : Delivers (eeExec _ eeLink_ok) ∧ EasyNet.Fairly (enExec eeStream eeStream_ok) ∧ ((enExec eeStream eeStream_ok).st 0).easy.careful = true ∧ Uses (enExec eeStream eeStream_ok) 0 (eeExec _ eeLink_ok) (b! "bye") ∧
    Ev.shutdown true ∉ ((eeExec _ eeLink_ok).st 30).a.trace ∧ acceptedBytes ((eeExec _ eeLink_ok).st 30).a.trace = [1, 2, 3] ∧ receivedBytes ((eeExec _ eeLink_ok).st 30).b.trace = [] ∧
    Ev.shut true ∈ ((eeExec _ eeLink_ok).st 37).a.trace ∧ received ((enExec eeStream eeStream_ok).st 19).easy.trace 0 = [1, 2, 3] ∧ EasyNet.shown .eof ∈ handled ((enExec eeStream eeStream_ok).st 19).easy.trace 0 ∧
    ((enExec eeStream eeStream_ok).st 19).easy.trace.contains .stopped = false ∧ Ev.on_closed ∉ ((eeExec _ eeLink_ok).st 53).a.trace ∧ Ev.on_closed ∉ ((eeExec _ eeLink_ok).st 53).b.trace :=
  ⟨eeExec_delivers _ _, enExec_fair _ _, rfl, ee_uses_ok _ _ _ _ _ [1, 2, 6, 9, 11] (by decide +kernel), by decide +kernel, by decide +kernel, by decide +kernel, by decide +kernel, by decide +kernel, by decide +kernel,
    by decide +kernel, by decide +kernel, by decide +kernel⟩

def eeAsk : Bytes := b! "/\nHost:h\n\nab./\nHost:h\n\nab."

def eeServer : List (NAct EasyHttp.SMsg) :=
  [.easy (.accept 100), .socket 0 .connected, .push .no, .easy (.resume 0), .socket 0 (.read (eeAsk.take 11)), .easy (.loop 0), .socket 0 (.read (eeAsk.drop 11)),
    .easy (.back 0 0), .push .no, .easy (.loop 0), .push .no, .easy (.back 0 0), .socket 0 .eof, .easy (.loop 0), .easy (.back 0 0), .easy (.loop 0)]

theorem eeServer_ok : (runs (EasyNet.step (C := EasyHttp.server tinyCfg tinyLib fun _ => .close)) { easy := { careful := true } } eeServer).any en_quiet = true := by decide +kernel

theorem eeAsk_ok : (runs (linkStep false) linkDemo (eeRun eeAsk (eeAsk.take 11) (eeAsk.drop 11))).any ee_quiet = true := by decide +kernel

theorem ee_kernel (as : List (Bool × Socket.Act)) (h : (runs (linkStep false) linkDemo as).any ee_quiet = true) (w : Bytes)
    (hw : ((List.range (as.length + 1)).all fun m => (kernelBytes ((eeExec as h).st m).a.trace).isPrefixOf w) = true) (m : Nat) : kernelBytes ((eeExec as h).st m).a.trace <+: w := by
  have hm : ∀ m, m ≤ as.length → kernelBytes ((eeExec as h).st m).a.trace <+: w := fun m hm => List.isPrefixOf_iff_prefix.1 (List.all_eq_true.1 hw m (List.mem_range.2 (by omega)))
  by_cases hle : m ≤ as.length
  · exact hm m hle
  · have : (eeExec as h).st m = (eeExec as h).st as.length := by
      show (runs (linkStep false) linkDemo (as.take m)).getD _ = (runs (linkStep false) linkDemo (as.take as.length)).getD _
      rw [List.take_of_length_le (by omega), List.take_length]
    rw [this]
    exact hm _ (Nat.le_refl _)

/- Two requests, which are sent by one call and read in two pieces; `tiny_conversation` says that they are good. -/
example : Delivers (eeExec _ eeAsk_ok) ∧ EasyNet.Fairly (enExec eeServer eeServer_ok) ∧ ((enExec eeServer eeServer_ok).st 0).easy.careful = true ∧ Uses (enExec eeServer eeServer_ok) 0 (eeExec _ eeAsk_ok) (b! "bye") ∧
    Ev.shutdown true ∉ ((eeExec _ eeAsk_ok).st 30).a.trace ∧ acceptedBytes ((eeExec _ eeAsk_ok).st 30).a.trace = [tinyRequest, tinyRequest].flatMap Spec.Request.wire ∧
    (∀ m, kernelBytes ((eeExec _ eeAsk_ok).st m).a.trace <+: [tinyRequest, tinyRequest].flatMap Spec.Request.wire) ∧ (∀ r ∈ [tinyRequest, tinyRequest], r.headers.is_proxy = false) ∧
    handled ((enExec eeServer eeServer_ok).st 16).easy.trace 0 = [EasyHttp.opened, EasyHttp.asked tinyRequest, EasyHttp.asked tinyRequest] :=
  ⟨eeExec_delivers _ _, enExec_fair _ _, rfl, ee_uses_ok _ _ _ _ _ [1, 2, 5, 7, 13] (by decide +kernel), by decide +kernel, by decide +kernel, ee_kernel _ _ _ (by decide +kernel), by decide +kernel, by decide +kernel⟩

def eeReply : Bytes := b! "2OK\nA:x\n\nab.2OK\nA:x\n\nab."

def eeClient : List (NAct EasyHttp.CMsg) := replyNetDemo (eeReply.take 9) (eeReply.drop 9) ++ [.push .no, .easy (.back 0 0), .easy (.loop 0), .socket 0 .eof, .easy (.back 0 0), .easy (.loop 0)]

theorem eeClient_ok : (runs (EasyNet.step (C := EasyHttp.client replyCfg replyLib)) { easy := { careful := true } } eeClient).any en_quiet = true := by decide +kernel

theorem eeReply_ok : (runs (linkStep false) linkDemo (eeRun eeReply (eeReply.take 9) (eeReply.drop 9))).any ee_quiet = true := by decide +kernel

/- Two responses, as in the examples beside `C96_client_end_partial`. -/
example : Delivers (eeExec _ eeReply_ok) ∧ EasyNet.Fairly (enExec eeClient eeClient_ok) ∧ ((enExec eeClient eeClient_ok).st 0).easy.careful = true ∧ Uses (enExec eeClient eeClient_ok) 0 (eeExec _ eeReply_ok) (b! "bye") ∧
    Ev.shutdown true ∉ ((eeExec _ eeReply_ok).st 30).a.trace ∧ acceptedBytes ((eeExec _ eeReply_ok).st 30).a.trace = [smallReply, smallReply].flatMap Spec.Client.Response.wire ∧
    (∀ m, kernelBytes ((eeExec _ eeReply_ok).st m).a.trace <+: [smallReply, smallReply].flatMap Spec.Client.Response.wire) ∧
    handled ((enExec eeClient eeClient_ok).st 16).easy.trace 0 = [EasyHttp.connected, EasyHttp.answered smallReply, EasyHttp.answered smallReply] :=
  ⟨eeExec_delivers _ _, enExec_fair _ _, rfl, ee_uses_ok _ _ _ _ _ [1, 2, 5, 8, 14] (by decide +kernel), by decide +kernel, by decide +kernel, ee_kernel _ _ _ (by decide +kernel), by decide +kernel⟩

end Verif.Props
