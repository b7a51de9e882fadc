import Verif.Proofs.TcpLink
import Verif.Props.Socket
import Verif.Props.EasyNet
/-!
# C116, C117: what a stream socket tells its user, and what gets from one end of a connection to the callback at the other
-/
namespace Verif.Props
open Verif.Socket
open Verif.EasyNet (In Net admits bytes)
open Verif.Easy (received handled)

/-! ## C116 -/

theorem reports_bytes (r : Bytes) (tr : List Ev) (h : ∀ d, Ev.stream d true ∈ tr → d = []) : bytes (reports r tr) = shownBytes tr := by
  induction tr with
  | nil => rfl
  | cons e tr ih =>
    have ih := ih fun d hd => h d (List.mem_cons_of_mem _ hd)
    rw [reports_cons, bytes, List.flatMap_append, ← bytes, ih]
    cases e with
    | stream d b =>
      cases b with
      | false => simp [told, shownBytes]
      | true => simp [told, shownBytes, h d List.mem_cons_self]
    | _ => simp [told, shownBytes]

theorem ends_empty {ssl s} (h : Reachable ssl s) : ∀ d, Ev.stream d true ∈ s.trace → d = [] := by
  induction h with
  | init => exact nofun
  | @step s s' a hrch hs ih =>
    rcases step_cases hs with ⟨t, f, rfl, hm, hf⟩ | ⟨t, d, rfl, hm⟩ | ⟨t, f, r', o, hr, hwt, hadv⟩ | ⟨fl, h1, h2, h3, rfl⟩ | ⟨fl, n, h0, he, rfl⟩
    · exact ih
    · intro d hd; exact ih d (by simpa using hd)
    · have hsh := shape hrch t
      rw [hr] at hsh
      intro d hd
      rcases advance_tells hadv hr hsh with ⟨es, he, hsil⟩ | he | he | ⟨-, -, ⟨x, hx, he⟩ | he⟩ <;> rw [he] at hd
      · rcases List.mem_append.mp hd with hd | hd
        · have := hsil _ hd; simp [Ev.silent, told] at this
        · exact ih d hd
      · exact ih d (by simpa using hd)
      · exact ih d (by simpa using hd)
      · exact ih d (by simpa using hd)
      · rcases List.mem_cons.mp hd with hd | hd
        · cases hd; rfl
        · exact ih d hd
    · exact ih
    · exact ih

/-- C116.  Whatever threads do and callbacks throw, and whatever the system reports: the data that the user of a socket is told are the bytes that have been received, in order and each once. -/
theorem C116_data (ssl : Bool) (r : Bytes) (s : Sys) (h : Reachable ssl s) : bytes (reports r s.trace) = receivedBytes s.trace := by
  rw [reports_bytes r _ (ends_empty h), shown h]

/-- C116.  Likewise, the user is told at most once that the socket is open, and at most once that it is closed, and nothing after that. -/
theorem C116_once (ssl : Bool) (r : Bytes) (s : Sys) (h : Reachable ssl s) :
    (reports r s.trace).count .connected ≤ 1 ∧ ∀ pre post, reports r s.trace = pre ++ .closed r :: post → post = [] := by
  have split : ∀ tr : List Ev, ∀ pre i post, reports r tr = pre ++ i :: post → ∃ a e b, tr = a ++ e :: b ∧ told r e = some i ∧ reports r b = pre ∧ (post ≠ [] → ∃ x ∈ a, told r x ≠ none) := by
    intro tr
    induction tr with
    | nil => intro pre i post h; simp [reports] at h
    | cons e tr ih =>
      intro pre i post h
      rw [reports_cons] at h
      cases ht : told r e with
      | none =>
        rw [ht] at h
        obtain ⟨a, e', b, h1, h2, h3, h4⟩ := ih pre i post (by simpa using h)
        exact ⟨e :: a, e', b, by rw [h1]; rfl, h2, h3, fun hp => by obtain ⟨x, hx, hn⟩ := h4 hp; exact ⟨x, List.mem_cons_of_mem _ hx, hn⟩⟩
      | some j =>
        rw [ht] at h
        simp only [Option.toList_some] at h
        rcases post.eq_nil_or_concat with rfl | ⟨post', k, rfl⟩
        · obtain ⟨h1, h2⟩ := List.append_inj' h rfl
          cases h2
          exact ⟨[], e, tr, rfl, ht, h1, fun h => absurd rfl h⟩
        · rw [show pre ++ i :: post'.concat k = (pre ++ i :: post') ++ [k] by simp] at h
          obtain ⟨h1, h2⟩ := List.append_inj' h rfl
          obtain ⟨a, e', b, k1, k2, k3, -⟩ := ih pre i post' h1
          exact ⟨e :: a, e', b, by rw [k1]; rfl, k2, k3, fun _ => ⟨e, List.mem_cons_self, by rw [ht]; simp⟩⟩
  constructor
  · have h1 := (connected_once h).1
    have : ∀ tr : List Ev, (reports r tr).count .connected = tr.count .connected := by
      intro tr
      induction tr with
      | nil => rfl
      | cons e tr ih =>
        rw [reports_cons, List.count_append, ih, List.count_cons]
        cases e with
        | stream d b => cases b <;> simp [told]
        | _ => simp [told]
    rw [this]; exact h1
  · intro pre post hp
    obtain ⟨a, e, b, h1, h2, -, h4⟩ := split _ _ _ _ hp
    have he : e = .on_closed := by
      unfold told at h2
      split at h2 <;> simp_all
    subst he
    by_cases hne : post = []
    · exact hne
    · obtain ⟨x, hx, hn⟩ := h4 hne
      have := (C31_last ssl s h a b h1).1 x hx
      revert hn this
      cases x <;> simp [told, Ev.isCallback]

/-- C116.  What a user of a socket is told: nothing, or that it is open, then any number of pieces of data and ends; in both cases it may be followed by the closure.  PARTIAL: only if nobody shuts the
socket down before the user has been told that it is open, see `C116_no_opening`, and if the system does not report that it can be read before it can be written to. -/
theorem C116_order_partial (ssl : Bool) (r : Bytes) (s : Sys) (h : Reachable ssl s) (hw : WriteableFirst s.trace) (hl : ShutLater s.trace) :
    ∃ l, (l = [] ∨ ∃ ds, l = .connected :: ds ∧ ∀ i ∈ ds, isData i) ∧ (reports r s.trace = l ∨ reports r s.trace = l ++ [.closed r]) := by
  obtain ⟨l, h1, h2⟩ := ordered r h hw hl
  refine ⟨l, h1, ?_⟩
  rw [h2]
  split
  · exact .inr rfl
  · left; simp

/-- C116.  This is what C94 to C96, C101 to C103, C113 and C114 presuppose of sockets.  PARTIAL: see `C116_order_partial`. -/
theorem C116_presupposed_partial (ssl : Bool) (r : Bytes) (s : Sys) (h : Reachable ssl s) (hw : WriteableFirst s.trace) (hl : ShutLater s.trace) (pre post : List In) (i : In)
    (hp : reports r s.trace = pre ++ i :: post) : admits pre i = true := by
  obtain ⟨l, h1, h2⟩ := C116_order_partial ssl r s h hw hl
  have hdata : ∀ ds pre i post, (∀ x ∈ ds, isData x) → .connected :: ds = pre ++ i :: post → admits pre i = true := by
    intro ds pre i post hd he
    cases pre with
    | nil => cases he; rfl
    | cons x pre =>
      rw [List.cons_append] at he
      obtain ⟨rfl, rfl⟩ := List.cons.inj he
      have hi := hd i (by simp)
      have hn : ∀ x ∈ pre, ¬ x.isClosed = true := fun x hx => by
        have := hd x (by simp [hx])
        cases x <;> simp_all [isData, In.isClosed]
      cases i with
      | connected => exact absurd hi id
      | read d => simp only [admits, List.any_cons, List.contains_cons]; rw [Bool.and_eq_true, Bool.and_eq_true]; exact ⟨⟨by simpa [isData] using hi, rfl⟩, by simpa [In.isClosed] using hn⟩
      | eof => simp only [admits, List.any_cons, List.contains_cons]; rw [Bool.and_eq_true]; exact ⟨rfl, by simpa [In.isClosed] using hn⟩
      | closed _ => exact absurd hi id
  have hopen : ∀ pre i post, l = pre ++ i :: post → admits pre i = true := by
    rcases h1 with rfl | ⟨ds, rfl, hd⟩
    · intro pre i post h; simp at h
    · exact fun pre i post he => hdata ds pre i post hd he
  rcases h2 with h2 | h2
  · exact hopen pre i post (h2 ▸ hp)
  · rw [h2] at hp
    rcases post.eq_nil_or_concat with rfl | ⟨post', k, rfl⟩
    · obtain ⟨rfl, h4⟩ := List.append_inj' hp rfl
      cases h4
      simp only [admits, Bool.not_eq_true', List.any_eq_false]
      intro x hx
      rcases h1 with rfl | ⟨ds, rfl, hd⟩
      · simp at hx
      · rcases List.mem_cons.mp hx with rfl | hx
        · simp [In.isClosed]
        · have := hd x hx
          cases x <;> simp_all [isData, In.isClosed]
    · rw [show pre ++ i :: post'.concat k = (pre ++ i :: post') ++ [k] by simp] at hp
      obtain ⟨h3, -⟩ := List.append_inj' hp rfl
      exact hopen pre i post' h3

/-- The connection is opened, two pieces of data arrive, and the other end is closed. -/
def fullActs : List Act := connectActs ++ readActs ++ [.run 0 (.data [1, 2]), .run 0 .ok, .run 0 (.data [3]), .run 0 (.consume 1), .run 0 .ok, .run 0 .eof, .run 0 .ok, .run 0 .none, .run 0 .none, .run 0 .none, .run 0 .none, .run 0 .none,
  .poll ⟨false, false, false, true⟩, .take 100, .run 0 .none, .run 0 .none, .run 0 .none, .run 0 .none]

/-- `WriteableFirst`, as a test. -/
def readsLater : List Ev → Bool
  | [] => true
  | e :: t => (e != .on_readable || t.contains .on_writeable) && readsLater t

theorem readsLater_iff {tr : List Ev} (h : readsLater tr = true) : WriteableFirst tr := by
  induction tr with
  | nil => intro a b h; simp at h
  | cons e t ih =>
    simp only [readsLater, Bool.and_eq_true, Bool.or_eq_true] at h
    intro a b he
    cases a with
    | nil => cases he; simpa using h.1
    | cons x a => exact ih h.2 a b (List.cons.inj he).2

/-- `ShutLater`, as a test. -/
def shutsLater : List Ev → Bool
  | [] => true
  | e :: t => (match e with
    | .shut true | .shutdown _ => t.contains .connected || t.contains .on_closed
    | _ => true) && shutsLater t

theorem shutsLater_iff {tr : List Ev} (h : shutsLater tr = true) : ShutLater tr := by
  induction tr with
  | nil => intro a e b h; simp at h
  | cons e t ih =>
    simp only [shutsLater, Bool.and_eq_true] at h
    intro a x b he hx
    cases a with
    | nil =>
      cases he
      have h := h.1
      rcases hx with rfl | ⟨g, rfl⟩ <;> simpa using h
    | cons y a => exact ih h.2 a x b (List.cons.inj he).2 hx

theorem demo_some {α : Type} {o : Option α} (p : α → Bool) (h : o.any p = true) : ∃ x, o = some x ∧ p x = true := by
  cases o with
  | none => cases h
  | some x => exact ⟨x, rfl, h⟩

example : ∃ s, Reachable false s ∧ reports (b! "bye") s.trace = [.connected, .read [1, 2], .read [3], .eof, .closed (b! "bye")] ∧ WriteableFirst s.trace ∧ ShutLater s.trace := by
  obtain ⟨s, h1, h2⟩ := demo_some (o := run false demoSys fullActs) (fun s => decide (reports (b! "bye") s.trace = [.connected, .read [1, 2], .read [3], .eof, .closed (b! "bye")]) && readsLater s.trace && shutsLater s.trace) (by decide +kernel)
  simp only [Bool.and_eq_true, decide_eq_true_eq] at h2
  exact ⟨s, demo_reachable false _ s h1, h2.1.1, readsLater_iff h2.1.2, shutsLater_iff h2.2⟩

/-- C116 is violated.  A thread sends something before the connection is open, and shuts the socket down; the data are to be sent all the same.  Then the connection is opened, the data are sent, and the
answer arrives: the user is told about it, but never that the connection is open. -/
theorem C116_no_opening : ∃ s, run false demoSys ([.call 1 (.send [65]), .run 1 .none, .run 1 .none, .run 1 .none, .call 1 .shut_down, .run 1 .none, .run 1 .none, .run 1 .none, .run 1 .none, .run 1 .none,
    .poll ⟨false, true, true, false⟩, .take 100, .run 0 .none, .run 0 .none, .run 0 .none, .run 0 (.io 1), .run 0 .none, .run 0 .none, .run 0 .none, .run 0 .none, .run 0 .none, .run 0 (.data [66])]) = some s ∧
    kernelBytes s.trace = [65] ∧ Ev.shut true ∈ s.trace ∧ WriteableFirst s.trace ∧ reports (b! "bye") s.trace = [.read [66]] := by
  obtain ⟨s, h1, h2⟩ := demo_some (o := run false demoSys ([.call 1 (.send [65]), .run 1 .none, .run 1 .none, .run 1 .none, .call 1 .shut_down, .run 1 .none, .run 1 .none, .run 1 .none, .run 1 .none, .run 1 .none,
    .poll ⟨false, true, true, false⟩, .take 100, .run 0 .none, .run 0 .none, .run 0 .none, .run 0 (.io 1), .run 0 .none, .run 0 .none, .run 0 .none, .run 0 .none, .run 0 .none, .run 0 (.data [66])]))
    (fun s => decide (kernelBytes s.trace = [65]) && decide (Ev.shut true ∈ s.trace) && readsLater s.trace && decide (reports (b! "bye") s.trace = [.read [66]])) (by decide +kernel)
  simp only [Bool.and_eq_true, decide_eq_true_eq] at h2
  exact ⟨s, h1, h2.1.1.1, h2.1.1.2, readsLater_iff h2.1.2, h2.2⟩

/-! ## C117 -/

/-- What has been accepted at one end, when it has not been abandoned: either all that the kernel has been given is a part of it, or it is followed by a part of what a thread is sending right now. -/
theorem kernel_prefix {ssl : Bool} {s : Sys} (h : Reachable ssl s) (ok : ¬ Aborted s.trace) :
    kernelBytes s.trace <+: acceptedBytes s.trace ∨ ∃ t id d w, Frame.send_loop id d w ∈ s.stk t ∧ kernelBytes s.trace <+: acceptedBytes s.trace ++ d := by
  rcases C25_output_any_time ssl s h ok with h | ⟨t, id, p, w, h1, -, h3⟩
  · exact .inl ⟨_, h⟩
  · exact .inr ⟨t, id, p ++ w, w, h1, by rw [h3, ← List.append_assoc]; exact List.prefix_append _ _⟩

/-- C117.  At any time, the bytes that have been received at one end of a connection are the first ones of what `tcp_send()` has accepted at the other end (or is sending right now), in the order in which it
has accepted them, unless the sender has been abandoned; and so are the bytes of which the user is told. -/
theorem C117_received {ssl : Bool} {w : TcpLink.World} (h : TcpLink.Reachable ssl w) (ok : ¬ Aborted w.a.trace) (r : Bytes) :
    bytes (reports r w.b.trace) <+: acceptedBytes w.a.trace ∨ ∃ t id d x, Frame.send_loop id d x ∈ w.a.stk t ∧ bytes (reports r w.b.trace) <+: acceptedBytes w.a.trace ++ d := by
  have hi := TcpLink.inv h
  have hp : receivedBytes w.b.trace <+: kernelBytes w.a.trace := ⟨_, hi.ab.bytes⟩
  rw [C116_data ssl r w.b hi.b]
  rcases kernel_prefix hi.a ok with h1 | ⟨t, id, d, x, h1, h2⟩
  · exact .inl (hp.trans h1)
  · exact .inr ⟨t, id, d, x, h1, hp.trans h2⟩

theorem told_split (r : Bytes) : ∀ (tr : List Ev) (pre : List In) (i : In) (post : List In), reports r tr = pre ++ i :: post → ∃ a e b, tr = a ++ e :: b ∧ told r e = some i ∧ reports r b = pre := by
  intro tr
  induction tr with
  | nil => intro pre i post h; simp [reports] at h
  | cons e tr ih =>
    intro pre i post h
    rw [reports_cons] at h
    cases ht : told r e with
    | none =>
      rw [ht] at h
      obtain ⟨a, e', b, h1, h2, h3⟩ := ih pre i post (by simpa using h)
      exact ⟨e :: a, e', b, by rw [h1]; rfl, h2, h3⟩
    | some j =>
      rw [ht] at h
      simp only [Option.toList_some] at h
      rcases post.eq_nil_or_concat with rfl | ⟨post', k, rfl⟩
      · obtain ⟨h1, h2⟩ := List.append_inj' h rfl
        cases h2
        exact ⟨[], e, tr, rfl, ht, h1⟩
      · rw [show pre ++ i :: post'.concat k = (pre ++ i :: post') ++ [k] by simp] at h
        obtain ⟨h1, h2⟩ := List.append_inj' h rfl
        obtain ⟨a, e', b, k1, k2, k3⟩ := ih pre i post' h1
        exact ⟨e :: a, e', b, by rw [k1]; rfl, k2, k3⟩

theorem shown_before {ssl s} (h : Reachable ssl s) : ∀ x d y, s.trace = x ++ .stream d true :: y → shownBytes y = receivedBytes y := by
  induction h with
  | init => intro x d y h; simp at h
  | @step s s' a hrch hs ih =>
    have skip : ∀ es, (∀ e ∈ es, ∀ d, e ≠ Ev.stream d true) → ∀ x d y, es ++ s.trace = x ++ .stream d true :: y → shownBytes y = receivedBytes y := by
      intro es
      induction es with
      | nil => intro _; exact ih
      | cons e es ih2 =>
        intro he x d y hx
        cases x with
        | nil => exact absurd (List.cons.inj hx).1 (he e List.mem_cons_self d)
        | cons z x => exact ih2 (fun e h => he e (List.mem_cons_of_mem _ h)) x d y (List.cons.inj hx).2
    rcases step_cases hs with ⟨t, f, rfl, hm, hf⟩ | ⟨t, d, rfl, hm⟩ | ⟨t, f, r', o, hr, hwt, hadv⟩ | ⟨fl, h1, h2, h3, rfl⟩ | ⟨fl, n, h0, he, rfl⟩
    · exact ih
    · exact skip [_] (by simp)
    · have hsh := shape hrch t
      rw [hr] at hsh
      rcases advance_tells hadv hr hsh with ⟨es, he, hsil⟩ | he | he | ⟨-, -, ⟨x, hx, he⟩ | he⟩ <;> rw [he]
      · exact skip es fun e h d he => by have := hsil e h; rw [he] at this; simp [Ev.silent, told] at this
      · exact skip [_] (by simp)
      · exact skip [_] (by simp)
      · exact skip [_, _] (by simp)
      · intro x d y hx
        cases x with
        | nil => rw [← (List.cons.inj hx).2]; exact shown hrch
        | cons z x => exact ih x d y (List.cons.inj hx).2
    · exact ih
    · exact ih

/-- C117.  Once the end of the stream has been seen at one end, all data have been seen: nothing comes behind the end, unless the receiver had been shut down itself before. -/
theorem C117_last {ssl : Bool} {w : TcpLink.World} (h : TcpLink.Reachable ssl w) (nf : ¬ ShutFirst w.b.trace) (r : Bytes) (x y : List In) (he : reports r w.b.trace = x ++ .eof :: y) :
    bytes x = bytes (reports r w.b.trace) := by
  have hi := TcpLink.inv h
  obtain ⟨a, e, b, h1, h2, h3⟩ := told_split r _ _ _ _ he
  have hs : ∃ d, e = .stream d true := by
    cases e with
    | stream d f => cases f with
      | true => exact ⟨d, rfl⟩
      | false => simp [told] at h2
    | _ => simp [told] at h2
  obtain ⟨d, rfl⟩ := hs
  rw [C116_data ssl r w.b hi.b, (hi.ab.last a d b h1).resolve_right nf, ← shown_before hi.b a d b h1, ← h3]
  exact reports_bytes r b fun d' hd => ends_empty hi.b d' (by rw [h1]; simp [hd])

/-- C117.  When the end of the stream is seen at one end, then the other end has been shut down, and all that had been accepted there before has been received, unless the sender had been abandoned, or
the receiver had been shut down itself before. -/
theorem C117_end {ssl : Bool} {w : TcpLink.World} (h : TcpLink.Reachable ssl w) (ok : ¬ Aborted w.a.trace) (nf : ¬ ShutFirst w.b.trace) (r : Bytes) (he : In.eof ∈ reports r w.b.trace) :
    ∃ later before, w.a.trace = later ++ .shutdown true :: before ∧ bytes (reports r w.b.trace) = acceptedBytes before := by
  have hi := TcpLink.inv h
  rw [C116_data ssl r w.b hi.b]
  have hs : ∃ d, Ev.stream d true ∈ w.b.trace := by
    unfold reports at he
    obtain ⟨e, he, ht⟩ := List.mem_filterMap.mp he
    rw [List.mem_reverse] at he
    cases e with
    | stream d b => cases b with
      | true => exact ⟨d, he⟩
      | false => simp [told] at ht
    | _ => simp [told] at ht
  obtain ⟨d, hd⟩ := hs
  obtain ⟨h1, h2⟩ := (hi.ab.over d hd).resolve_right nf
  have hb := hi.ab.bytes
  rw [h1, List.append_nil] at hb
  obtain ⟨g, hg⟩ := TcpLink.down_mem.mp h2
  obtain ⟨x, y, hxy⟩ := List.append_of_mem hg
  cases g with
  | false => exact absurd (.inr hg) ok
  | true =>
    refine ⟨x, y, hxy, ?_⟩
    rw [hb, hi.ab.stop x y true hxy]
    refine (C26_drained ssl w.a hi.a x y hxy).resolve_left fun ha => ok ?_
    rw [hxy]
    rcases ha with ha | ha
    · exact .inl (by simp [ha])
    · exact .inr (by simp [ha])

/-- C117.  The same in the other direction. -/
theorem C117_back {ssl : Bool} {w : TcpLink.World} (h : TcpLink.Reachable ssl w) : TcpLink.Reachable ssl w.swap := by
  induction h with
  | init n m e f => exact .init m n f e
  | @step w w' atB x _ hs ih =>
    refine .step (!atB) x ih ?_
    unfold TcpLink.step at *
    cases atB with
    | false =>
      simp only [Bool.not_false, if_true, Bool.false_eq_true, if_false] at *
      rw [show w.swap.swap = w from rfl, hs]; rfl
    | true =>
      simp only [Bool.not_true, if_true, Bool.false_eq_true, if_false, Option.map_eq_some_iff] at *
      obtain ⟨v, h1, rfl⟩ := hs
      exact h1

/-- C117.  An easy server or client has a session for this end of the connection: at any time, the data for which its callback has been called are the first bytes of what has been accepted at the other
end.  PARTIAL: only if no object is created at an address for which a fiber has not returned, see `C39_reuse`. -/
theorem C117_callback_partial {ssl : Bool} {w : TcpLink.World} (h : TcpLink.Reachable ssl w) (ok : ¬ Aborted w.a.trace) {n : Net EasyStream.tcp} (hn : EasyNet.Reachable n) (hc : n.easy.careful = true) (i : Nat)
    {r : Bytes} (hi : n.input i = reports r w.b.trace) :
    received n.easy.trace i <+: acceptedBytes w.a.trace ∨ ∃ t id d x, Frame.send_loop id d x ∈ w.a.stk t ∧ received n.easy.trace i <+: acceptedBytes w.a.trace ++ d := by
  have hp := C94_stream_partial hn hc i
  rw [hi] at hp
  rcases C117_received h ok r with h1 | ⟨t, id, d, x, h1, h2⟩
  · exact .inl (hp.trans h1)
  · exact .inr ⟨t, id, d, x, h1, hp.trans h2⟩

/-- C117.  At the end, when all fibers have returned and the end of the stream has been seen, the callback has got all that had been accepted at the other end before it was shut down, in order and each byte
once, and then the end.  PARTIAL: see `C117_callback_partial`. -/
theorem C117_complete_partial {ssl : Bool} {w : TcpLink.World} (h : TcpLink.Reachable ssl w) (ok : ¬ Aborted w.a.trace) (nf : ¬ ShutFirst w.b.trace) {n : Net EasyStream.tcp} (hn : EasyNet.Reachable n) (hc : n.easy.careful = true) {i : Nat}
    {r : Bytes} (hin : n.input i = reports r w.b.trace) (ht : n.todo = []) (hd : ∀ x ∈ n.easy.fibs, x.st = .done) (hi : i < n.easy.count) (hl : ¬ Easy.Lost n.easy.trace i) (he : In.eof ∈ n.input i) :
    ∃ later before, w.a.trace = later ++ .shutdown true :: before ∧ received n.easy.trace i = acceptedBytes before ∧ EasyNet.shown .eof ∈ handled n.easy.trace i := by
  obtain ⟨h1, h2⟩ := C94_stream_end_partial hn hc ht hd hi hl
  rw [hin] at he
  obtain ⟨x, y, h3, h4⟩ := C117_end h ok nf r he
  refine ⟨x, y, h3, by rw [h2, hin, h4], ?_⟩
  rw [h1, hin]
  exact List.mem_map_of_mem he

/-- Both ends are opened; one thread at `a` sends three bytes, of which the kernel takes two, and shuts the socket down; the network threads do the rest. -/
def linkActs : List (Bool × Act) :=
  (connectActs.map (false, ·)) ++ (connectActs.map (true, ·)) ++
  (([.call 1 (.send [1, 2, 3]), .run 1 .none, .run 1 .none, .run 1 .none, .run 1 (.io 2), .run 1 .block, .call 1 .shut_down, .run 1 .none, .run 1 .none, .run 1 .none, .run 1 .none, .run 1 .none, .run 1 .none] : List Act).map (false, ·)) ++
  ((readActs ++ [Act.run 0 (.data [1]), .run 0 .ok, .run 0 (.data [2]), .run 0 .ok, .run 0 .block, .run 0 .none, .run 0 .none]).map (true, ·)) ++
  (([.poll ⟨false, true, false, false⟩, .take 100, .run 0 .none, .run 0 .none, .run 0 .none, .run 0 (.io 1), .run 0 .none, .run 0 .none, .run 0 .none, .run 0 .none] : List Act).map (false, ·)) ++
  ((readActs ++ [Act.run 0 (.data [3]), .run 0 .ok, .run 0 .eof, .run 0 .ok]).map (true, ·))

def linkDemo : TcpLink.World := { a := demoSys, b := demoSys }

theorem link_reachable {ssl : Bool} {xs : List (Bool × Act)} : ∀ {w w' : TcpLink.World}, TcpLink.Reachable ssl w → TcpLink.run ssl w xs = some w' → TcpLink.Reachable ssl w' := by
  induction xs with
  | nil => intro w w' h hr; cases hr; exact h
  | cons x xs ih =>
    intro w w' h hr
    simp only [TcpLink.run] at hr
    split at hr
    · cases hr
    · rename_i m hm; exact ih (.step x.1 x.2 h hm) hr

example : ∃ w, TcpLink.Reachable false w ∧ ¬ Aborted w.a.trace ∧ ¬ ShutFirst w.b.trace ∧ acceptedBytes w.a.trace = [1, 2, 3] ∧ reports (b! "bye") w.b.trace = [.connected, .read [1], .read [2], .read [3], .eof] := by
  obtain ⟨w, h1, h2⟩ := demo_some (o := TcpLink.run false linkDemo linkActs) (fun w => decide (Ev.write_error ∉ w.a.trace) && decide (Ev.shutdown false ∉ w.a.trace) && decide (TcpLink.down w.b.trace = false) && decide (acceptedBytes w.a.trace = [1, 2, 3]) &&
    decide (reports (b! "bye") w.b.trace = [.connected, .read [1], .read [2], .read [3], .eof])) (by decide +kernel)
  simp only [Bool.and_eq_true, decide_eq_true_eq] at h2
  refine ⟨w, link_reachable (.init 2 2 none none) h1, fun h => h.elim h2.1.1.1.1 h2.1.1.1.2, fun ⟨x, g, y, hx, _⟩ => ?_, h2.1.2, h2.2⟩
  have := TcpLink.down_mem.2 ⟨g, show Ev.shutdown g ∈ w.b.trace by rw [hx]; simp⟩
  rw [h2.1.1.2] at this
  cases this

/-- A socket that has been shut down sees an end of the stream, although the other end has not been shut down, and data are on their way. -/
example : ∃ w, TcpLink.Reachable false w ∧ TcpLink.down w.a.trace = false ∧ w.ab = [1, 2, 3] ∧ reports (b! "bye") w.b.trace = [.connected, .eof] := by
  obtain ⟨w, h1, h2⟩ := demo_some (o := TcpLink.run false linkDemo ((connectActs.map (false, ·)) ++ (connectActs.map (true, ·)) ++
    (([.call 1 (.send [1, 2, 3]), .run 1 .none, .run 1 .none, .run 1 .none, .run 1 (.io 3), .run 1 .none] : List Act).map (false, ·)) ++
    (([Act.call 1 .quick_shut_down, .run 1 .none, .run 1 .none] ++ readActs ++ [Act.run 0 .eof]).map (true, ·))))
    (fun w => decide (TcpLink.down w.a.trace = false) && decide (w.ab = [1, 2, 3]) && decide (reports (b! "bye") w.b.trace = [.connected, .eof])) (by decide +kernel)
  simp only [Bool.and_eq_true, decide_eq_true_eq] at h2
  exact ⟨w, link_reachable (.init 2 2 none none) h1, h2.1.1, h2.1.2, h2.2⟩

/-- A session with this socket. -/
example : ∃ n : Net EasyStream.tcp, EasyNet.Reachable n ∧ n.easy.careful = true ∧ n.input 0 = [.connected, .read [1], .read [2], .read [3], .eof] ∧ received n.easy.trace 0 = [1, 2] := by
  obtain ⟨n, h1, h2⟩ := demo_some (o := EasyNet.run ({ easy := { careful := true } } : Net EasyStream.tcp) [.easy (.accept 100), .socket 0 .connected, .push .no, .easy (.resume 0), .easy (.loop 0), .socket 0 (.read [1]),
    .easy (.back 0 0), .push .no, .socket 0 (.read [2]), .push .no, .easy (.loop 0), .socket 0 (.read [3]), .push .no, .socket 0 .eof, .push .no, .easy (.back 0 0), .easy (.loop 0)])
    (fun n => n.easy.careful && decide (n.input 0 = [.connected, .read [1], .read [2], .read [3], .eof]) && decide (received n.easy.trace 0 = [1, 2])) (by decide +kernel)
  simp only [Bool.and_eq_true, decide_eq_true_eq] at h2
  exact ⟨n, net_run_reachable (.init true) h1, h2.1.1, h2.1.2, h2.2⟩

end Verif.Props
