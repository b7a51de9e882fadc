import Verif.Proofs.WsCut
import Verif.Props.WsCut
import Verif.Props.WsClient
/-! # C92: reads that end inside a frame -/
namespace Verif.WsClient
open Verif.Props Verif.Spec

theorem cut_fold {Z : Type} (g : Cfg Z) : ∀ (bs : List Bytes) (w : W Z), w.threw = false → Calm g.env w.ws (placed g.addr w.calls bs) →
    ∃ w', (bs.map fun b => HttpClient.Ev.upgraded b false).foldl (W.step g) w = w' ∧ w'.threw = false ∧ w'.statuses = w.statuses ∧ Ws.Grows w.ws w'.ws ∧
      w'.ws = ((placed g.addr w.calls bs).map (fun r => Ws.Input.stream r.1 r.2)).foldl (Ws.Session.input g.env) w.ws
  | [], w, h, _ => ⟨w, rfl, h, rfl, .refl _, rfl⟩
  | b :: bs, w, h, hc => by
    unfold placed Calm at hc
    simp only at hc
    have hs : W.step g w (.upgraded b false) = { w with calls := w.calls + 1, ws := (w.ws.stream g.env (g.addr (w.calls + 1)) b).1, threw := false } := by
      unfold W.step
      rw [if_neg (by simp [h])]
      simp only [hc.1]
      rfl
    obtain ⟨w', i1, i2, i3, i5, i6⟩ := cut_fold g bs { w with calls := w.calls + 1, ws := (w.ws.stream g.env (g.addr (w.calls + 1)) b).1, threw := false } rfl hc.2
    refine ⟨w', by rw [List.map_cons, List.foldl_cons, hs]; exact i1, i2, i3, (Ws.grows_stream g.env (g.addr (w.calls + 1)) w.ws b).trans i5, ?_⟩
    rw [i6]
    rfl

end Verif.WsClient

namespace Verif.Props
open Verif.HttpLib Verif.Spec Verif.Spec.Client Verif.HttpClient Verif.WsClient
open Verif.Spec (Emits EndsWithHead replyCalls)

/-- C92, for reads that end inside frames: as `C92_session`, but a read may end after a frame, after the header of any frame that is not compressed, and inside the payload of a continuation or a control
frame.  Not covered: a read that ends inside the payload of the first frame of a message, or inside a header, and compressed messages in more than one frame (violated, see `C15_violated_payload`,
`C15_violated_header` and `C15_violated_compressed`). -/
theorem C92_cut_partial {Z : Type} (g : WsClient.Cfg Z) (max lv : Nat) (hg : g.parser = { wshs := .c_req_sent, max_message_length := max, default_compression_level := lv }) (hq : Quiet g.env max)
    (hacc : ∀ t, g.env.on_accepted t = false) (hV : Ws.WindowTexts g.values) (hlen : g.accept.length = 28) (hhead : g.accept.headD 0 ≠ 0)
    (c : HttpRequest.Cfg) (L : Lib) (r : Response) (st : L.σ) (hr : r.Good L c false false L.init st) (hend : EndsWithHead L L.init r.wire) (hkeep : r.keep = true) (hstatus : r.status = 101)
    (hagree : AgreesToWebSocket g.accept (texts r.headers))
    (pieces : List Bytes) (last : Bytes) (hlast : last ≠ []) (hpieces : pieces.flatten ++ last = r.wire) (frames : List Sent) (first : Bytes) (more : List Bytes)
    (hall : (first :: more).flatten = onWire frames) (hcut : ∀ n, MayEnd (frames.map Sent.raw) ((first :: more).take n).flatten)
    (agreed : Bool) (hagreed : agreed = true → ∃ p, Ws.accept_handshake_response g.values g.accept g.parser (texts r.headers) = some p ∧ p.pmce_compression_level_m2 ≠ 0)
    (hread : Readable max (unpackMessage g.env.inflate_stream g.env.inflate_finish) g.inflator frames) (hlegal : LegalSequence false agreed false (frames.map Sent.frame)) (hlimit : WithinLimit max .idle (frames.map Sent.meant)) :
    ∃ w rest, connect g c L (pieces.map (fun b => ⟨b, false⟩) ++ [⟨last ++ first, false⟩] ++ more.map (fun b => ⟨b, false⟩)) = some w ∧
      w.threw = false ∧ w.statuses = [101] ∧ w.ws.trace = .accepted :: rest ∧ .accepted ∉ rest ∧ delivered rest = (assemble .idle (frames.map Sent.meant)).2 := by
  obtain ⟨p', a1, a2, a3, a4, a5, a6⟩ := accepts g.values hV g.accept hlen hhead max lv (texts r.headers) hagree
  rw [← hg] at a1
  -- the handshake
  obtain ⟨s1, r1, r2, r3, r6⟩ := loop_bare (A := app) (c := c) ((last ++ first).length + 1) ({} : Sess L) r st (first) pieces last rfl rfl rfl hr hend hlast hpieces rfl
  generalize hh : ({ ({} : Sess L) with p := {}, st := st, ack := r.status == 101, trace := ({} : Sess L).trace ++ [.headers r.headers] ++ [.stream r.body.flatten] ++ .finish r.headers (app.onStream (({} : Sess L).trace ++ [.headers r.headers]) r.body.flatten) :: closing (!r.keep) } : Sess L) = s2 at r6
  have h2 : s2.failed = none ∧ s2.ack = true ∧ s2.trace = [.headers r.headers, .stream r.body.flatten, .finish r.headers []] := by
    rw [← hh]
    simp only
    rw [hkeep, hstatus]
    exact ⟨trivial, rfl, rfl⟩
  obtain ⟨f2, k2, t2⟩ := h2
  have hrun : HttpClient.run app c ({} : Sess L) [] (pieces.map (fun b => ⟨b, false⟩) ++ [⟨last ++ first, false⟩] ++ more.map (fun b => ⟨b, false⟩))
      = some ({ (({ s2 with p := HttpResponse.deallocate s2.p } : Sess L).call (.upgraded (first) false)) with trace := s2.trace ++ [.upgraded (first) false] ++ more.map fun b => .upgraded b false }, []) := by
    rw [List.append_assoc, HttpClient.run_append, r1]
    simp only [List.cons_append, List.nil_append, HttpClient.run]
    rw [HttpClient.step_receive _ _ _ r2 r3, r6]
    have hl : loop app c false ((last ++ first).length + 1) s2 (first) = some (({ s2 with p := HttpResponse.deallocate s2.p } : Sess L).call (.upgraded (first) false), []) := by
      rw [loop_succ, if_pos k2]
    rw [hl]
    simp only
    have := HttpClient.run_ack (A := app) (c := c) more (({ s2 with p := HttpResponse.deallocate s2.p } : Sess L).call (.upgraded (first) false)) f2 k2
    exact this
  -- the frames
  have hfin : ({ ws := { parser := g.parser }, calls := 3 } : W Z).finish g r.headers
      = { ws := { (({ parser := p', pmce := if p'.pmce_send_window_bits ≠ 0 then some (g.inflator, []) else none } : Ws.Session Z).push .accepted) with upgraded := true }, heads := [r.headers], statuses := [101], threw := false, calls := 3 } := by
    unfold W.finish
    simp only [a1]
    unfold W.shaken
    simp only
    have e1 : ¬ p'.wshs ≠ .c_accepted := by simp [a2]
    simp only [if_neg e1]
    have : (r.headers.status == 101) = true := by simp [Response.headers, hstatus]
    simp [this, hacc]
    simp [Response.headers, hstatus]
  have hof : W.of g (W.start g) (s2.trace ++ [.upgraded (first) false] ++ more.map fun b => .upgraded b false)
      = ((first :: more).map fun r => HttpClient.Ev.upgraded r false).foldl (W.step g)
          ({ ws := { (({ parser := p', pmce := if p'.pmce_send_window_bits ≠ 0 then some (g.inflator, []) else none } : Ws.Session Z).push .accepted) with upgraded := true }, heads := [r.headers], statuses := [101], threw := false, calls := 3 } : W Z) := by
    rw [t2, ← hfin]
    unfold W.of W.start
    simp only [List.cons_append, List.nil_append, List.foldl_cons, List.map_map, List.map_cons]
    congr 1
  generalize hw0 : ({ ws := { (({ parser := p', pmce := if p'.pmce_send_window_bits ≠ 0 then some (g.inflator, []) else none } : Ws.Session Z).push .accepted) with upgraded := true }, heads := [r.headers], statuses := [101], threw := false, calls := 3 } : W Z) = w0 at hof
  obtain ⟨d1, d2⟩ := placed_run g.env max hq w0.ws (by rw [← hw0]; exact a3) (by rw [← hw0]; rfl) (by rw [← hw0]; exact a5) (by rw [← hw0]; exact a6) g.inflator (by rw [← hw0]; exact WsServer.holds_start p' g.inflator rfl rfl) frames hread
    (by
      rw [← hw0]
      show LegalSequence (isServer p') (hasPmce p') false _
      rw [a4]
      exact WsServer.legal_agreed (agreed_response a1 hg) hagreed hlegal) hlimit g.addr w0.calls (first :: more) hall hcut
  obtain ⟨w', b1, b2, b3, b5, b6⟩ := cut_fold g (first :: more) w0 (by rw [← hw0]) d2
  rw [← b6] at d1
  rw [b1] at hof
  rw [← hw0] at b3 b5 d1
  obtain ⟨-, rest, g1, g2⟩ := b5
  refine ⟨w', rest, ?_, b2, b3, g1, g2, ?_⟩
  · unfold connect W.reads
    rw [hrun]
    simp only [hof]
    rw [b2]
    simp only [Sess.call, f2]
    simp [← b2]
  · have : delivered w'.ws.trace = delivered rest := by rw [g1]; rfl
    rw [← this, d1]
    rfl

/-- The frames of `cutFrames`, as a server sends them. -/
def cutReplies : List Sent := cutFrames.map fun x => { x with frame := { x.frame with key := none } }

/-- They are read in four pieces, which end after the header of the second frame, inside the payload of the PING, and inside the payload of the last frame. -/
def cutReplyReads : List Bytes :=
  let w := wire (cutReplies.map Sent.raw)
  [w.take 6, (w.drop 6).take 5, (w.drop 11).take 4, w.drop 15]

example : ∃ w rest, connect countClient replyCfg switchLib [⟨b! "1Swi", false⟩, ⟨(answerText ++ b! "\n").drop 4 ++ cutReplyReads[0], false⟩, ⟨cutReplyReads[1], false⟩, ⟨cutReplyReads[2], false⟩, ⟨cutReplyReads[3], false⟩] = some w ∧
    w.threw = false ∧ w.statuses = [101] ∧ w.ws.trace = .accepted :: rest ∧ .accepted ∉ rest ∧ delivered rest = [.message 1 (b! "Hi!"), .message 9 [33, 34], .message 1 [72, 101, 108, 111]] := by
  have hread : Readable 0x100000 (unpackMessage countEnv.inflate_stream countEnv.inflate_finish) 0 cutReplies := by
    have fits : ∀ x ∈ cutReplies, x.frame.opcode < 16 ∧ x.frame.key = none ∧ x.frame.len < 2 ^ 64 := by decide
    have hf : ∀ x ∈ cutReplies, x.frame.Fits := fun x hx => ⟨(fits x hx).1, fun k hk => (by rw [(fits x hx).2.1] at hk; cases hk), (fits x hx).2.2⟩
    simp only [cutReplies, cutFrames, List.map_cons, List.map_nil, List.mem_cons, List.not_mem_nil, or_false, forall_eq_or_imp, forall_eq] at hf ⊢
    obtain ⟨f1, f2, f3, f4⟩ := hf
    exact ⟨f1, rfl, by decide, rfl, by decide, 1, by rfl, f2, rfl, by decide, rfl, f3, rfl, by decide, rfl, f4, rfl, by decide, rfl, trivial⟩
  have hcut : ∀ n, MayEnd (cutReplies.map Sent.raw) ((cutReplyReads[0] :: [cutReplyReads[1], cutReplyReads[2], cutReplyReads[3]]).take n).flatten := by
    intro n
    match n with
    | 0 => exact ⟨[], cutReplies.map Sent.raw, [], rfl, by decide +kernel, .inl rfl⟩
    | 1 => exact ⟨(cutReplies.take 1).map Sent.raw, (cutReplies.drop 1).map Sent.raw, ((wire (cutReplies.map Sent.raw)).drop 4).take 2, rfl, by decide +kernel, .inr ⟨_, _, rfl, 0, by decide, by decide +kernel, fun _ => ⟨rfl, rfl⟩⟩⟩
    | 2 => exact ⟨(cutReplies.take 2).map Sent.raw, (cutReplies.drop 2).map Sent.raw, ((wire (cutReplies.map Sent.raw)).drop 8).take 3, rfl, by decide +kernel, .inr ⟨_, _, rfl, 1, by decide, by decide +kernel, by decide⟩⟩
    | 3 => exact ⟨(cutReplies.take 3).map Sent.raw, (cutReplies.drop 3).map Sent.raw, ((wire (cutReplies.map Sent.raw)).drop 12).take 3, rfl, by decide +kernel, .inr ⟨_, _, rfl, 1, by decide, by decide +kernel, by decide⟩⟩
    | n + 4 =>
      refine ⟨cutReplies.map Sent.raw, [], [], by simp, ?_, .inl rfl⟩
      rw [List.take_of_length_le (by simp)]
      decide +kernel
  have := C92_cut_partial countClient 0x100000 6 rfl ⟨fun _ _ _ => rfl, by simp [countClient, countEnv], fun _ => rfl, fun _ _ _ => rfl⟩ (fun _ => rfl) plainLib_windows (by decide) (by decide) replyCfg switchLib answer
    (ReplyState.code, false) answer_good.1 answer_good.2 rfl rfl answer_agrees [b! "1Swi"] ((answerText ++ b! "\n").drop 4) (by decide +kernel) (by decide +kernel) cutReplies cutReplyReads[0] [cutReplyReads[1], cutReplyReads[2], cutReplyReads[3]]
    (by decide +kernel) hcut true (fun _ => ⟨_, by rfl, by decide⟩) hread (by decide) (by decide +kernel)
  rw [show (assemble .idle (cutReplies.map Sent.meant)).2 = [.message 1 (b! "Hi!"), .message 9 [33, 34], .message 1 [72, 101, 108, 111]] by decide +kernel] at this
  exact this

end Verif.Props
