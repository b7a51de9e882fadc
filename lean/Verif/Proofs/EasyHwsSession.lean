import Verif.Proofs.EasyHwsRequests
/-! # Plain requests, a handshake and frames, for easy HTTP and WebSocket servers -/
namespace Verif.EasyHws
open Verif.Spec Verif.Props
open Verif.EasyWs (event events SMore WMsg)
open Verif.HttpLib (Lib)
open Verif.HttpServer Verif.WsServer

variable {Z : Type} {L : Lib}

theorem route_shake {h : HttpRequest.Headers} (hm : h.method = b! "GET") (ha : AsksForWebSocket (texts h)) : route h = .shake := by
  unfold route
  rw [hm, if_neg (by decide), if_pos rfl, if_pos]
  obtain ⟨n, h1, h2⟩ := ha.upgrade
  unfold texts at h1
  obtain ⟨x, hx, he⟩ := List.mem_map.mp h1
  simp only [Prod.mk.injEq] at he
  exact List.any_eq_true.mpr ⟨x, hx, by rw [he.1]; exact (HttpRequest.name_eq_iff _ _).2 h2⟩

theorem session (g : WsServer.Cfg Z) (max lv : Nat) (hg : g.parser = { max_message_length := max, default_compression_level := lv }) (hq : Quiet g.env max) (hacc : ∀ t, g.env.on_accepted t = false)
    (c : HttpRequest.Cfg) {body : L.σ → Prop} (hL : LibOk L body) (rs : List Request) (hp : ∀ r ∈ rs, IsPlain r.headers) (st0 : L.σ) (hr0 : Conversation L c L.init rs st0)
    (r : Request) (st : L.σ) (hr : r.Good L c st0 st) (hend : EndsWithHead L st0 r.wire) (hkeep : r.keep = true)
    (hproxy : r.headers.is_proxy = false) (hm : r.headers.method = b! "GET") (hask : AsksForWebSocket (texts r.headers)) (l : List Bytes) (hl : l.flatten = rs.flatMap Request.wire)
    (pieces : List Bytes) (last : Bytes) (hlast : last ≠ []) (hpieces : pieces.flatten ++ last = r.wire) (first : List Sent) (more : List (List Sent))
    (agreed : Bool) (hagreed : agreed = true → ∃ p ext, Ws.accept_handshake_request g.values g.parser (texts r.headers) = some (p, some ext))
    (hread : Readable max (unpackMessage g.env.inflate_stream g.env.inflate_finish) g.inflator (first :: more).flatten) (hlegal : LegalSequence true agreed false ((first :: more).flatten.map Sent.frame)) (hlimit : WithinLimit max .idle ((first :: more).flatten.map Sent.meant)) :
    ∃ s rest, (H.start g).reads g c ({} : Sess L) (l.map (fun b => .receive b false) ++ (pieces.map (fun b => .receive b false) ++ [.receive (last ++ onWire first) false] ++ more.map (fun fs => .receive (onWire fs) false))) = some s ∧
      s.w.threw = false ∧ s.w.responses = [101] ∧ s.w.addresses = [caddr r.headers] ∧ s.w.ws.trace = .accepted :: rest ∧ .accepted ∉ rest ∧ delivered rest = (assemble .idle ((first :: more).flatten.map Sent.meant)).2 ∧
      s.log = (rs.map fun r => asked r.headers) ++ ((.accepted :: rest).flatMap (event (caddr r.headers))).map lift := by
  obtain ⟨x0, hs, k0, c1, c2, c3, c4, c5, c6⟩ := conversation_state g (c := c) hL rs hp st0 hr0 l hl
  have hm' : r.headers.method ≠ b! "OPTIONS" := by rw [hm]; decide
  have hroute := route_shake hm hask
  obtain ⟨p', a1, a2, a3, a4, a5, a6⟩ := accepts g.values max lv r.headers hm' hask
  rw [← hg] at a1
  have hcomp : ∀ k, (({ ws := { parser := g.parser }, heads := hs ++ [r.headers], calls := k } : W Z).complete g r.headers false)
      = ({ ws := ({ parser := p', upgraded := true, pmce := if p'.pmce_send_window_bits ≠ 0 then some (g.inflator, []) else none } : Ws.Session Z).push .accepted, heads := hs ++ [r.headers], responses := [101],
           addresses := [caddr r.headers], threw := false, calls := k }, true) := by
    intro k
    unfold W.complete
    simp only [a1]
    rw [if_neg (by simp), if_neg hm', if_neg (by simp [a2])]
    simp [hacc]
  have hrep : (app g (.start g)).onHeaders x0.trace r.headers (!r.keep) = { switched := true } := by
    unfold app
    simp only [c6]
    simp only [W.start, hkeep, hproxy, Bool.not_true, Bool.false_eq_true, if_false, if_pos hroute, hcomp]
  -- the handshake
  obtain ⟨s1, r1, r2, r3, r4, r5, r6⟩ := loop_bare (A := app g (.start g)) (c := c) ((last ++ onWire first).length + 1) x0 r st (onWire first) pieces last c2 c3 c4 (by rw [c5]; exact hr) (by rw [c5]; exact hend) hlast hpieces
    (.inl (by rw [hrep]))
  generalize hh : handed (app g (.start g)) x0 r st = s2 at r6
  have h2 : s2.failed = none ∧ s2.ack = true ∧ ∃ left, s2.trace = x0.trace ++ [.headers r.headers false, .stream r.payload, .finish r.headers left false] := by
    rw [← hh]
    unfold handed
    simp only
    rw [hrep, hkeep]
    exact ⟨c2, by simp, _, by simp; rfl⟩
  obtain ⟨f2, k2, left, t2⟩ := h2
  have hrun : HttpServer.run (app g (.start g)) c ({} : Sess L) [] (l.map (fun b => .receive b false) ++ (pieces.map (fun b => .receive b false) ++ [.receive (last ++ onWire first) false] ++ more.map (fun fs => .receive (onWire fs) false)))
      = some ({ (({ s2 with p := Verif.HttpServer.deallocate s2.p } : Sess L).call (.upgraded (onWire first) false)) with
                trace := s2.trace ++ [.upgraded (onWire first) false] ++ (more.map onWire).map fun b => .upgraded b false }, []) := by
    have e0 : arrival l false = l.map (fun b => .receive b false) := by simp [arrival]
    rw [← e0, run_append, c1]
    simp only
    rw [List.append_assoc, run_append, r1]
    simp only [List.cons_append, List.nil_append, HttpServer.run]
    rw [step_receive _ _ _ r2 r3, r6]
    have hl : loop (app g (.start g)) c false ((last ++ onWire first).length + 1) s2 (onWire first) = some (({ s2 with p := Verif.HttpServer.deallocate s2.p } : Sess L).call (.upgraded (onWire first) false), []) := by
      rw [loop_succ, if_pos k2]
    rw [hl]
    simp only
    have := run_ack (A := app g (.start g)) (c := c) (more.map onWire) (({ s2 with p := Verif.HttpServer.deallocate s2.p } : Sess L).call (.upgraded (onWire first) false)) f2 k2
    rw [List.map_map] at this
    exact this
  -- the frames
  generalize hmid : ({ ws := ({ parser := p', upgraded := true, pmce := if p'.pmce_send_window_bits ≠ 0 then some (g.inflator, []) else none } : Ws.Session Z).push .accepted, heads := hs ++ [r.headers], responses := [101], addresses := [caddr r.headers], threw := false, calls := k0 + 1 } : W Z) = mid at *
  have hstep : (H.of g (.start g) x0.trace).step g (.headers r.headers false) = { w := mid, log := (rs.map fun r => asked r.headers) ++ [lift (EasyWs.opened (caddr r.headers))] } := by
    rw [c6]
    unfold H.step
    simp only [W.start, Bool.false_eq_true, if_false, hproxy, if_pos hroute, hcomp]
    unfold H.take
    rw [← hmid]
    rfl
  have hof : H.of g (.start g) (s2.trace ++ [.upgraded (onWire first) false] ++ (more.map onWire).map fun b => .upgraded b false)
      = H.of g { w := mid, log := (rs.map fun r => asked r.headers) ++ [lift (EasyWs.opened (caddr r.headers))] }
          ([.stream r.payload, .finish r.headers left false] ++ (first :: more).map fun r => HttpServer.Ev.upgraded (onWire r) false) := by
    rw [← hstep, t2]
    unfold H.of
    simp [List.foldl_append, List.foldl_map]
  obtain ⟨o1, o2⟩ := of_ws g ([.stream r.payload, .finish r.headers left false] ++ (first :: more).map fun r => HttpServer.Ev.upgraded (onWire r) false)
    { w := mid, log := (rs.map fun r => asked r.headers) ++ [lift (EasyWs.opened (caddr r.headers))] } (by simp)
  rw [o2] at hof
  have hwof : W.of g mid ([.stream r.payload, .finish r.headers left false] ++ (first :: more).map fun r => HttpServer.Ev.upgraded (onWire r) false)
      = ((first :: more).map fun r => HttpServer.Ev.upgraded (onWire r) false).foldl (W.step g) ({ mid with calls := mid.calls + 1 + 1 } : W Z) := by
    rw [← hmid]; rfl
  obtain ⟨w', b1, b2, b3, b4, b5, b6⟩ := frames_fold g max hq (first :: more) ({ mid with calls := mid.calls + 1 + 1 } : W Z) .idle g.inflator (by rw [← hmid]) ⟨by rw [← hmid]; exact a3, by rw [← hmid]; rfl, by rw [← hmid]; exact a5⟩ (fun _ => by rw [← hmid]; exact a6) (fun _ => by rw [← hmid]; exact holds_start p' g.inflator rfl rfl) hread
    (fun _ => by
      rw [← hmid]
      show LegalSequence (isServer p') (hasPmce p') (inMessage p') _
      rw [a4, a5]
      exact legal_agreed (accept_agreed a1 hm' hg) hagreed hlegal) hlimit
  rw [hwof, b1] at hof
  obtain ⟨-, rest, g1, g2⟩ := b5
  have g1 : w'.ws.trace = .accepted :: rest := by rw [g1, ← hmid]; rfl
  refine ⟨_, rest, by unfold H.reads; rw [hrun], ?_⟩
  simp only [hof]
  refine ⟨by rw [b2]; simp only [Sess.call, f2]; rfl, by rw [b3, ← hmid], by rw [b4, ← hmid], g1, g2, ?_, ?_⟩
  · have : delivered w'.ws.trace = delivered rest := by rw [g1]; rfl
    rw [← this, b6, ← hmid]
    rfl
  · rw [g1, ← hmid]
    simp only [events, Ws.Session.push, List.nil_append]
    simp [event, EasyWs.opened]

end Verif.EasyHws
