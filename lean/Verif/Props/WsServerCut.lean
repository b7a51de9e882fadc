import Verif.Proofs.WsCut
import Verif.Props.WsCut
import Verif.Props.WsServer
/-! # C90: reads that end inside a frame -/
namespace Verif.WsServer
open Verif.Props Verif.Spec

theorem cut_fold {Z : Type} (g : Cfg Z) : ∀ (bs : List Bytes) (w : W Z), w.threw = false → Calm g.env w.ws (placed g.addr w.calls bs) →
    ∃ w', (bs.map fun b => HttpServer.Ev.upgraded b false).foldl (W.step g) w = w' ∧ w'.threw = false ∧ w'.responses = w.responses ∧ w'.addresses = w.addresses ∧ Ws.Grows w.ws w'.ws ∧
      w'.ws = ((placed g.addr w.calls bs).map (fun r => Ws.Input.stream r.1 r.2)).foldl (Ws.Session.input g.env) w.ws
  | [], w, h, _ => ⟨w, rfl, h, rfl, rfl, .refl _, rfl⟩
  | b :: bs, w, h, hc => by
    unfold placed Calm at hc
    simp only at hc
    have hs : W.step g w (.upgraded b false) = { w with calls := w.calls + 1, ws := (w.ws.stream g.env (g.addr (w.calls + 1)) b).1, threw := false } := by
      unfold W.step
      rw [if_neg (by simp [h])]
      simp only [hc.1]
      rfl
    obtain ⟨w', i1, i2, i3, i4, i5, i6⟩ := cut_fold g bs { w with calls := w.calls + 1, ws := (w.ws.stream g.env (g.addr (w.calls + 1)) b).1, threw := false } rfl hc.2
    refine ⟨w', by rw [List.map_cons, List.foldl_cons, hs]; exact i1, i2, i3, i4, (Ws.grows_stream g.env (g.addr (w.calls + 1)) w.ws b).trans i5, ?_⟩
    rw [i6]
    rfl

end Verif.WsServer

namespace Verif.Props
open Verif.HttpLib Verif.Spec Verif.HttpServer Verif.WsServer

/-- C90, for reads that end inside frames: as `C90_session`, but a read may end after a frame, after the header of any frame that is not compressed, and inside the payload of a continuation or a control
frame.  Not covered: a read that ends inside the payload of the first frame of a message, or inside a header, and compressed messages in more than one frame (violated, see `C15_violated_payload`,
`C15_violated_header` and `C15_violated_compressed`). -/
theorem C90_cut_partial {Z : Type} (g : WsServer.Cfg Z) (max lv : Nat) (hg : g.parser = { max_message_length := max, default_compression_level := lv }) (hq : Quiet g.env max)
    (hacc : ∀ t, g.env.on_accepted t = false) (c : HttpRequest.Cfg) (L : Lib) (r : Request) (st : L.σ) (hr : r.Good L c L.init st) (hend : EndsWithHead L L.init r.wire) (hkeep : r.keep = true)
    (hproxy : r.headers.is_proxy = false) (hm : r.headers.method ≠ b! "OPTIONS") (hask : AsksForWebSocket (texts r.headers))
    (pieces : List Bytes) (last : Bytes) (hlast : last ≠ []) (hpieces : pieces.flatten ++ last = r.wire) (frames : List Sent) (first : Bytes) (more : List Bytes)
    (hall : (first :: more).flatten = onWire frames) (hcut : ∀ n, MayEnd (frames.map Sent.raw) ((first :: more).take n).flatten)
    (agreed : Bool) (hagreed : agreed = true → ∃ p ext, Ws.accept_handshake_request g.values g.parser (texts r.headers) = some (p, some ext))
    (hread : Readable max (unpackMessage g.env.inflate_stream g.env.inflate_finish) g.inflator frames) (hlegal : LegalSequence true agreed false (frames.map Sent.frame)) (hlimit : WithinLimit max .idle (frames.map Sent.meant)) :
    ∃ w rest, serve g c L (pieces.map (fun b => .receive b false) ++ [.receive (last ++ first) false] ++ more.map (fun b => .receive b false)) = some w ∧
      w.threw = false ∧ w.responses = [101] ∧ w.addresses = [r.headers.raw_host ++ r.headers.raw_path ++ b! "?" ++ r.headers.raw_query] ∧
      w.ws.trace = .accepted :: rest ∧ .accepted ∉ rest ∧ delivered rest = (assemble .idle (frames.map Sent.meant)).2 := by
  obtain ⟨p', a1, a2, a3, a4, a5, a6⟩ := accepts g.values max lv r.headers hm hask
  rw [← hg] at a1
  have hcomp : ∀ k, (({ ws := { parser := g.parser }, heads := [r.headers], calls := k } : W Z).complete g r.headers false)
      = ({ ws := ({ parser := p', upgraded := true, pmce := if p'.pmce_send_window_bits ≠ 0 then some (g.inflator, []) else none } : Ws.Session Z).push .accepted, heads := [r.headers], responses := [101],
           addresses := [caddr r.headers], threw := false, calls := k }, true) := by
    intro k
    unfold W.complete
    simp only [a1]
    rw [if_neg (by simp), if_neg hm, if_neg (by simp [a2])]
    simp [hacc]
  have hrep : (app g (W.start g)).onHeaders [] r.headers (!r.keep) = { switched := true } := by
    unfold app
    simp only [W.of, W.start, List.foldl_nil, hkeep, hproxy, Bool.not_true, Bool.false_eq_true, if_false, List.nil_append, hcomp]
  -- the handshake
  obtain ⟨s1, r1, r2, r3, r4, r5, r6⟩ := loop_bare (A := app g (W.start g)) (c := c) ((last ++ first).length + 1) ({} : Sess L) r st (first) pieces last rfl rfl rfl hr hend hlast hpieces
    (.inl (by show ((app g (W.start g)).onHeaders [] r.headers (!r.keep)).type = _; rw [hrep]))
  generalize hh : handed (app g (W.start g)) ({} : Sess L) r st = s2 at r6
  have h2 : s2.failed = none ∧ s2.ack = true ∧ ∃ left, s2.trace = [.headers r.headers false, .stream r.payload, .finish r.headers left false] := by
    rw [← hh]
    unfold handed
    simp only
    rw [hrep, hkeep]
    exact ⟨trivial, by simp, _, rfl⟩
  obtain ⟨f2, k2, left, t2⟩ := h2
  have hrun : HttpServer.run (app g (W.start g)) c ({} : Sess L) [] (pieces.map (fun b => .receive b false) ++ [.receive (last ++ first) false] ++ more.map (fun b => .receive b false))
      = some ({ (({ s2 with p := Verif.HttpServer.deallocate s2.p } : Sess L).call (.upgraded (first) false)) with
                trace := s2.trace ++ [.upgraded (first) false] ++ more.map fun b => .upgraded b false }, []) := by
    rw [List.append_assoc, run_append, r1]
    simp only [List.cons_append, List.nil_append, HttpServer.run]
    rw [step_receive _ _ _ r2 r3, r6]
    have hl : loop (app g (W.start g)) c false ((last ++ first).length + 1) s2 (first) = some (({ s2 with p := Verif.HttpServer.deallocate s2.p } : Sess L).call (.upgraded (first) false), []) := by
      rw [loop_succ, if_pos k2]
    rw [hl]
    simp only
    have := run_ack (A := app g (W.start g)) (c := c) more (({ s2 with p := Verif.HttpServer.deallocate s2.p } : Sess L).call (.upgraded (first) false)) f2 k2
    exact this
  -- the frames
  have hof : W.of g (W.start g) (s2.trace ++ [.upgraded (first) false] ++ more.map fun b => .upgraded b false)
      = ((first :: more).map fun r => HttpServer.Ev.upgraded r false).foldl (W.step g)
          ({ ws := ({ parser := p', upgraded := true, pmce := if p'.pmce_send_window_bits ≠ 0 then some (g.inflator, []) else none } : Ws.Session Z).push .accepted, heads := [r.headers], responses := [101],
             addresses := [caddr r.headers], threw := false, calls := 3 } : W Z) := by
    rw [t2]
    have hstep : (({ ws := { parser := g.parser } } : W Z).step g (.headers r.headers false)) = (({ ws := { parser := g.parser }, heads := [r.headers], calls := 1 } : W Z).complete g r.headers false).1 := by
      unfold W.step
      rw [if_neg (by simp)]
      simp only [hproxy, Bool.false_eq_true, if_false, List.nil_append]
    unfold W.of W.start
    simp only [List.cons_append, List.nil_append, List.foldl_cons, hstep, hcomp, List.map_map, List.map_cons]
    congr 1
  generalize hw0 : ({ ws := ({ parser := p', upgraded := true, pmce := if p'.pmce_send_window_bits ≠ 0 then some (g.inflator, []) else none } : Ws.Session Z).push .accepted, heads := [r.headers], responses := [101], addresses := [caddr r.headers], threw := false, calls := 3 } : W Z) = w0 at hof
  obtain ⟨d1, d2⟩ := placed_run g.env max hq w0.ws (by rw [← hw0]; exact a3) (by rw [← hw0]; rfl) (by rw [← hw0]; exact a5) (by rw [← hw0]; exact a6) g.inflator (by rw [← hw0]; exact holds_start p' g.inflator rfl rfl) frames hread
    (by
      rw [← hw0]
      show LegalSequence (isServer p') (hasPmce p') false _
      rw [a4]
      exact legal_agreed (accept_agreed a1 hm hg) hagreed hlegal) hlimit g.addr w0.calls (first :: more) hall hcut
  obtain ⟨w', b1, b2, b3, b4, b5, b6⟩ := cut_fold g (first :: more) w0 (by rw [← hw0]) d2
  rw [← b6] at d1
  rw [b1] at hof
  rw [← hw0] at b3 b4 b5 d1
  obtain ⟨-, rest, g1, g2⟩ := b5
  refine ⟨w', rest, ?_, b2, b3, by rw [b4]; rfl, g1, g2, ?_⟩
  · unfold serve W.reads
    rw [hrun]
    simp only [hof]
    rw [b2]
    simp only [Sess.call, f2]
    simp [← b2]
  · have : delivered w'.ws.trace = delivered rest := by rw [g1]; rfl
    rw [← this, d1]
    rfl

example : ∃ w rest, serve countServer bareCfg bareLib [.receive (b! "/chat\nHos") false, .receive ((shakeText ++ b! "\n").drop 9 ++ (cutReads.map Prod.snd)[0]) false,
      .receive (cutReads.map Prod.snd)[1] false, .receive (cutReads.map Prod.snd)[2] false, .receive (cutReads.map Prod.snd)[3] false] = some w ∧
    w.threw = false ∧ w.responses = [101] ∧ w.addresses = [b! "h/chat?"] ∧ w.ws.trace = .accepted :: rest ∧ .accepted ∉ rest ∧
    delivered rest = [.message 1 (b! "Hi!"), .message 9 [33, 34], .message 1 [72, 101, 108, 111]] := by
  obtain ⟨c1, c2, c3, c4, c5, c6, c7⟩ := cut_case
  have := C90_cut_partial countServer 0x100000 6 rfl c1 (fun _ => rfl) bareCfg bareLib shake TinyState.url shake_good.1 shake_good.2 rfl rfl
    (by decide) shake_asks [b! "/chat\nHos"] ((shakeText ++ b! "\n").drop 9) (by decide +kernel) (by decide +kernel) cutFrames (cutReads.map Prod.snd)[0] [(cutReads.map Prod.snd)[1], (cutReads.map Prod.snd)[2], (cutReads.map Prod.snd)[3]]
    c5 (fun n => by have := c6 n; rw [List.map_take] at this; exact this) true (fun _ => ⟨_, b! "permessage-deflate", by rfl⟩) c2 c3 c4
  rw [c7] at this
  exact this

end Verif.Props
