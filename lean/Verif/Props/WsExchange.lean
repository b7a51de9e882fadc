import Verif.Proofs.WsExchange
import Verif.Proofs.WsItems
import Verif.Props.WsPeers
import Verif.Props.EasyWs
/-! # Easy WebSocket clients and servers, from one end to the other (C114) -/
namespace Verif.Props
open Verif.HttpLib Verif.Spec Verif.Spec.WsExchange Verif.WsExchange Verif.Easy Verif.EasyNet Verif.EasyWs
open Verif.EasyConnect (Kind Plan ws_request)
open Verif.WsPeers (Act Peer withInflator)
open Verif.Spec.WsPeers (Interleaves compressed untilClose)
open Verif.Zlib
open Verif.HttpExchange (lineLib readRequest readReply LineState sbc_self)

/-- What `answer` says is what the model of the session (C90) does. -/
theorem answer_session (w : World) (p : Ws.Parser) (h : HttpRequest.Headers) : (Verif.WsExchange.answer w p h).map (fun r => (r.1, r.2.status)) = WsServer.handshake w.values p h := by
  unfold Verif.WsExchange.answer WsServer.handshake
  split
  · split <;> rfl
  · cases ha : Ws.accept_handshake_request w.values p (WsServer.texts h) with
    | none => rfl
    | some x =>
      obtain ⟨p', ext⟩ := x
      dsimp only
      cases hh : Ws.hs_headers w.values false p.default_compression_level (WsServer.texts h) {} with
      | none =>
        have : p'.wshs ≠ .s_accepted := by
          unfold Ws.accept_handshake_request at ha
          split at ha
          · cases ha
          · dsimp only [Ws.Parser.fail] at ha
            rw [hh] at ha
            cases ha
            rename_i hp
            have hp : p.wshs = .pending := by simpa using hp
            simp [hp]
        simp [this]
      | some st =>
        dsimp only
        by_cases hw : p'.wshs = .s_accepted <;> simp [hw]

theorem shaken_met (w : World) (hV : Ws.WindowTexts w.values) (key : Bytes) (hs : Sane w key) (p : RefParts) (plan : Plan) (max max' lv clv : Nat) (hlv : lv ≤ 9) (hclv : 0 < clv ∧ clv ≤ 9) {sp cp : Ws.Parser}
    (h : Shaken w key (asked plan.default_host p key) { max_message_length := max, default_compression_level := lv } { wshs := .c_req_sent, max_message_length := max', default_compression_level := clv } sp cp) : Met lv sp cp := by
  obtain ⟨sp', h1, h2, h3, h4, h5, h6, h7⟩ := server_meets w max lv hlv p plan key hs
  obtain ⟨cp', g1, g2, g3, g4, g5, g6⟩ := client_meets w hV max' lv clv hlv hclv key hs
  obtain ⟨resp, e1, -, e3⟩ := h
  rw [h2] at e1
  cases e1
  rw [g1] at e3
  cases e3
  exact ⟨h3, g2, ⟨h4, g3⟩, ⟨h5, g4⟩, ⟨h6, g5⟩, ⟨h7, g6⟩⟩

/-- C114, the handshake.  A client has been given an address.  What its session sends is one request, which the server reads as it is meant; the server accepts it; what it answers is one response, which the client
reads and accepts; and then they agree on whether messages are compressed.  PARTIAL: not for IPv6 addresses in brackets, see `C110_violated_ipv6`, nor if `://` is in the path or the query, see C73; and not if the compression level of the client is zero, see
`C61_violated`. -/
theorem C114_handshake_partial (w : World) (hV : Ws.WindowTexts w.values) (key : Bytes) (hs : Sane w key) (k : Kind) (p : RefParts) (plan : Plan) (ha : Address k p plan) (remote : Bytes)
    (c c' : HttpRequest.Cfg) (limit limit' : Nat) (L L' : Lib) (hL : ReadsSwitchRequests limit L) (hL' : ReadsSwitchReplies limit' L') (max max' lv clv : Nat) (hlv : lv ≤ 9) (hclv : 0 < clv ∧ clv ≤ 9)
    (hlen : (ws_request plan remote key).length ≤ limit ∧ (ws_request plan remote key).length ≤ c.max_header_length) :
    ∃ port, meantPort k p = some port ∧ HostText p.host port plan.default_host ∧
      (∃ (rq : Request) (st : L.σ), rq.Good L c L.init st ∧ rq.wire = ws_request plan remote key ∧ rq.headers = asked plan.default_host p key ∧ rq.keep = true) ∧
      ∃ sp cp resp, Verif.WsExchange.answer w { max_message_length := max, default_compression_level := lv } (asked plan.default_host p key) = some (sp, resp) ∧ resp.status = 101 ∧
        ((answer_text w resp).length ≤ limit' ∧ (answer_text w resp).length ≤ c'.max_header_length →
          ∃ (rp : Client.Response) (st : L'.σ), rp.Good L' c' false false L'.init st ∧ rp.wire = answer_text w resp ∧ rp.status = 101 ∧ rp.keep = true ∧ WsClient.texts rp.headers = resp.headers) ∧
        Ws.accept_handshake_response w.values (w.digest key) { wshs := .c_req_sent, max_message_length := max', default_compression_level := clv } resp.headers = some cp ∧ Met lv sp cp := by
  obtain ⟨port, e1, e2, e3, e4⟩ := address_plan ha
  obtain ⟨rq, st, r1, -, r3, r4, r5⟩ := request_reads hL (c := c) ha (remote := remote) hs hlen
  obtain ⟨sp, h1, h2, h3, h4, h5, h6, h7⟩ := server_meets w max lv hlv p plan key hs
  obtain ⟨cp, g1, g2, g3, g4, g5, g6⟩ := client_meets w hV max' lv clv hlv hclv key hs
  refine ⟨port, e1, e2 ▸ EasyConnect.host_text_spec _ _, ⟨rq, st, r1, r4, r5, r3⟩, sp, cp, { status := 101, reason := [], headers := replyFields w lv key }, h2, rfl, ?_, g1, h3, g2, ⟨h4, g3⟩, ⟨h5, g4⟩, ⟨h6, g5⟩, ⟨h7, g6⟩⟩
  intro hl
  obtain ⟨rp, st', q1, -, q3, q4, q5, q6⟩ := reply_reads hL' (c := c') w lv hs hl
  exact ⟨rp, st', q1, q5, q4, q3, q6⟩

theorem quiet_inflator {R : Type} {env : Ws.Env R} {max : Nat} (hq : Quiet env max) (zr : Zlib R) (gr : Bytes → Nat → Nat) (k : Nat) : Quiet (withInflator env zr gr max k) max := ⟨hq.1, hq.2, hq.3, hq.4⟩

theorem asks_host {fs : List (Bytes × Bytes)} (h : AsksForWebSocket fs) (host : Bytes) : AsksForWebSocket (fs ++ [(b! "Host", host)]) := by
  obtain ⟨⟨n1, h1, e1⟩, ⟨n2, h2, e2⟩, ⟨n3, k3, h3, e3⟩, h4, h5⟩ := h
  refine ⟨⟨n1, by simp [h1], e1⟩, ⟨n2, by simp [h2], e2⟩, ⟨n3, k3, by simp [h3], e3⟩, ?_, ?_⟩
  all_goals
    intro x hx hn
    rcases List.mem_append.mp hx with hx | hx
    · first
        | exact h4 x hx hn
        | exact h5 x hx hn
    · obtain rfl := List.mem_singleton.mp hx
      exfalso
      rw [← HttpRequest.name_eq_iff] at hn
      revert hn
      show ¬ Http.name_eq (b! "Host") _ = true
      decide +kernel

section
variable {S R : Type} (w : World) (hV : Ws.WindowTexts w.values) (key : Bytes) (hs : Sane w key) (k : Kind) (p : RefParts) (plan : Plan) (ha : Address k p plan) (remote : Bytes)
variable (c : HttpRequest.Cfg) (limit : Nat) (L : Lib) (max max' lv clv : Nat) (hlv : lv ≤ 9) (hclv : 0 < clv ∧ clv ≤ 9) (sp cp : Ws.Parser)
variable (hshake : Shaken w key (asked plan.default_host p key) { max_message_length := max, default_compression_level := lv } { wshs := .c_req_sent, max_message_length := max', default_compression_level := clv } sp cp)
variable (zs : Zlib S) (grow : Bytes → Nat → Nat) {zr : Zlib R} {codec : Codec} (hz : RawDeflates zs codec) (hr : RawInflates zr codec) (gr : Bytes → Nat → Nat) (hg : ∀ b r, r ≤ grow b r) (hgr : ∀ b r, r ≤ gr b r)
variable (s0 : S) (r0 : R) (h0 : hz.inp s0 = [] ∧ hz.out s0 = [] ∧ hr.inp r0 = [] ∧ hr.out r0 = []) (env : Ws.Env R) (hacc : ∀ t, env.on_accepted t = false) (addr : Nat → Nat) (acts : List Act)
include hV hs ha hlv hclv hshake hg hgr h0 hacc

/-- C114, from the client to the server.  After the handshake, threads of the client call `ws_send()` and `ws_shut_down()` as in C107.  At the server, the request arrives in any pieces, and then, in reads of whole frames, the first
frames that have been sent; then the socket is closed.  When the network thread has nothing left to do and all fibers have returned, the callback of the easy server has been called for the opening, with the address that the client has been given; for each of those messages but PINGs, as it was
sent, each once, in order; and for the end of the session; unless memory has run out or the server has been stopped.  PARTIAL: see `C114_handshake_partial`; reads must not end inside frames, see `C90_violated_header`, and compressed messages must not be
longer than the limit, see `C107_violated_limit`; see also `C101_order_partial`. -/
theorem C114_to_server_partial (hL : ReadsSwitchRequests limit L) (hlen : (ws_request plan remote key).length ≤ limit ∧ (ws_request plan remote key).length ≤ c.max_header_length)
    (hq : Quiet env max) (hmax : 125 ≤ max ∧ max < 2 ^ 64) (hl : ∀ t op data rnd, .send t op data rnd ∈ acts → data.length ≤ max) :
    ∃ port, meantPort k p = some port ∧ HostText p.host port plan.default_host ∧
      ∃ m σ all, (∀ j, m ≤ j → Peer.run (sender false cp zs grow) j { strm := s0 } acts = some σ) ∧ Interleaves σ.history all ∧ σ.wire.length = all.length ∧
        ((∀ f ∈ σ.wire, compressed f = true → f.length ≤ max + 2) → ∀ (pieces : List Bytes) (last : Bytes) (first : List Bytes) (more : List (List Bytes)), last ≠ [] → pieces.flatten ++ last = ws_request plan remote key →
          (first :: more).flatten <+: σ.wire → ∀ j, m ≤ j → ∀ (resume : WsServer.W R → HttpRequest.Parser × L.σ)
            {n : Net (server { values := w.values, env := withInflator env zr gr max j, inflator := r0, parser := { max_message_length := max, default_compression_level := lv }, addr := addr } c L resume)},
            Reachable n → n.easy.careful = true → n.todo = [] → (∀ x ∈ n.easy.fibs, x.st = .done) → ∀ i, i < n.easy.count → ¬ Lost n.easy.trace i → ∀ reason,
              n.input i = .connected :: (pieces ++ [last ++ first.flatten] ++ more.map List.flatten).map .read ++ [.closed reason] →
              handled n.easy.trace i = opened (plan.default_host ++ p.path.getD (b! "/") ++ b! "?" ++ p.query.getD []) :: (untilClose ((all.map (·.2)).take (first :: more).flatten.length)).flatMap shown ++
                lost (untilClose ((all.map (·.2)).take (first :: more).flatten.length))) := by
  have hmet := shaken_met w hV key hs p plan max max' lv clv hlv hclv hshake
  obtain ⟨port, e1, e2, -, -⟩ := address_plan ha
  obtain ⟨m, σ, all, p1, p2, p3, p4⟩ := WsPeers.peer_sent (sender false cp zs grow) hz hr gr hg hgr s0 r0 h0 max hmax env acts hl
  refine ⟨port, e1, e2 ▸ EasyConnect.host_text_spec _ _, m, σ, all, p1, p2, p3, ?_⟩
  intro hlim pieces last first more hlast hpieces hpre j hj resume n hn hc ht hd i hi hlo reason hin
  obtain ⟨gs, q1, q2, q3, q4, q5⟩ := p4 hlim (first :: more) hpre j hj
  cases gs with
  | nil => simp at q1
  | cons g1 gt =>
    simp only [List.map_cons, List.cons.injEq] at q1
    obtain ⟨q1a, q1b⟩ := q1
    obtain ⟨rq, st, r1, r2, r3, r4, r5⟩ := request_reads hL (c := c) ha (remote := remote) hs hlen
    obtain ⟨sp', t1, -⟩ := server_meets w max lv hlv p plan key hs
    have htexts : WsServer.texts rq.headers = requestFields plan key := by rw [r5]; exact request_texts p plan key
    have := C101_session_partial (g := { values := w.values, env := withInflator env zr gr max j, inflator := r0, parser := { max_message_length := max, default_compression_level := lv }, addr := addr }) (c := c) (L := L) (resume := resume)
      max lv rfl (quiet_inflator hq zr gr j) hacc rq st r1 r2 r3 (by rw [r5]; rfl) (by rw [r5]; show ¬ (b! "GET" = b! "OPTIONS"); decide)
      (by rw [htexts]; exact asks_host (C92_peer_request key hs.request.1 hs.request.2.1) _) pieces last hlast (by rw [r4]; exact hpieces) g1 gt (sender false cp zs grow).pmce
      (by
        intro hp
        have hlv0 : lv ≠ 0 := by
          intro h
          have hb := hmet.send.2
          rw [if_pos h] at hb
          simp [sender, hb] at hp
        refine ⟨sp', b! "permessage-deflate", ?_⟩
        rw [htexts]
        have he : extOf lv = some (b! "permessage-deflate") := if_neg hlv0
        rw [← he]
        exact t1)
      q2 q3 q4 hn hc ht hd hi hlo reason (by rw [hin, q1a, q1b])
    rw [q5] at this
    rw [this, r5]
    rfl

/-- C114, from the server to the client, likewise: the response arrives in any pieces, and then, in reads of whole frames, the first frames that threads of the server have sent; the callback of the easy client
has been called for the opening, with the whole address that it has been given; for each of those messages but PINGs; and for the end.  PARTIAL: see `C114_to_server_partial` and `C102_order_partial`. -/
theorem C114_to_client_partial (hL : ReadsSwitchReplies limit L) (resp : Http.SHeaders) (hresp : Verif.WsExchange.answer w { max_message_length := max, default_compression_level := lv } (asked plan.default_host p key) = some (sp, resp))
    (hlen : (answer_text w resp).length ≤ limit ∧ (answer_text w resp).length ≤ c.max_header_length)
    (hq : Quiet env max') (hmax : 125 ≤ max' ∧ max' < 2 ^ 64) (hl : ∀ t op data rnd, .send t op data rnd ∈ acts → data.length ≤ max') :
    ∃ port, meantPort k p = some port ∧ HostText p.host port plan.default_host ∧
      ∃ m σ all, (∀ j, m ≤ j → Peer.run (sender true sp zs grow) j { strm := s0 } acts = some σ) ∧ Interleaves σ.history all ∧ σ.wire.length = all.length ∧
        ((∀ f ∈ σ.wire, compressed f = true → f.length ≤ max' + 2) → ∀ (pieces : List Bytes) (last : Bytes) (first : List Bytes) (more : List (List Bytes)), last ≠ [] → pieces.flatten ++ last = answer_text w resp →
          (first :: more).flatten <+: σ.wire → ∀ j, m ≤ j → ∀ (resume : WsClient.W R → HttpResponse.Parser × L.σ)
            {n : Net (client { values := w.values, env := withInflator env zr gr max' j, inflator := r0, parser := { wshs := .c_req_sent, max_message_length := max', default_compression_level := clv }, accept := w.digest key, addr := addr } c L
              (plan.default_host, plan.path, plan.query, p.fragment.getD []) resume)},
            Reachable n → n.easy.careful = true → n.todo = [] → (∀ x ∈ n.easy.fibs, x.st = .done) → ∀ i, i < n.easy.count → ¬ Lost n.easy.trace i → ∀ reason,
              n.input i = .connected :: (pieces ++ [last ++ first.flatten] ++ more.map List.flatten).map .read ++ [.closed reason] →
              handled n.easy.trace i = opened (plan.default_host ++ p.path.getD [] ++ b! "?" ++ p.query.getD [] ++ b! "#" ++ p.fragment.getD []) ::
                (untilClose ((all.map (·.2)).take (first :: more).flatten.length)).flatMap shown ++ lost (untilClose ((all.map (·.2)).take (first :: more).flatten.length))) := by
  have hmet := shaken_met w hV key hs p plan max max' lv clv hlv hclv hshake
  obtain ⟨port, e1, e2, e3, e4⟩ := address_plan ha
  obtain ⟨m, σ, all, p1, p2, p3, p4⟩ := WsPeers.peer_sent (sender true sp zs grow) hz hr gr hg hgr s0 r0 h0 max' hmax env acts hl
  refine ⟨port, e1, e2 ▸ EasyConnect.host_text_spec _ _, m, σ, all, p1, p2, p3, ?_⟩
  intro hlim pieces last first more hlast hpieces hpre j hj resume n hn hc ht hd i hi hlo reason hin
  obtain ⟨gs, q1, q2, q3, q4, q5⟩ := p4 hlim (first :: more) hpre j hj
  cases gs with
  | nil => simp at q1
  | cons g1 gt =>
    simp only [List.map_cons, List.cons.injEq] at q1
    obtain ⟨q1a, q1b⟩ := q1
    obtain ⟨sp', t1, t2, -⟩ := server_meets w max lv hlv p plan key hs
    rw [t2] at hresp
    cases hresp
    obtain ⟨rp, st, r1, r2, r3, r4, r5, r6⟩ := reply_reads hL (c := c) w lv hs hlen
    obtain ⟨cp', u1, -⟩ := client_meets w hV max' lv clv hlv hclv key hs
    have hcp : cp' = cp := by
      obtain ⟨resp, f1, -, f3⟩ := hshake
      rw [t2] at f1
      cases f1
      rw [u1] at f3
      cases f3
      rfl
    subst hcp
    have := C102_session_partial (g := { values := w.values, env := withInflator env zr gr max' j, inflator := r0, parser := { wshs := .c_req_sent, max_message_length := max', default_compression_level := clv }, accept := w.digest key, addr := addr })
      (c := c) (L := L) (resume := resume) (uri := (plan.default_host, plan.path, plan.query, p.fragment.getD [])) max' clv rfl (quiet_inflator hq zr gr j) hacc hV hs.digest.1 hs.digest.2.1 rp st r1 r2 r3 r4
      (by rw [r6]; exact C92_peer_response w.values hV _ _ _ _ _ _ t1) pieces last hlast (by rw [r5]; exact hpieces) g1 gt (sender true sp zs grow).pmce
      (by
        intro hp
        have hlv0 : lv ≠ 0 := by
          intro h
          have hb := hmet.send.1
          rw [if_pos h] at hb
          simp [sender, hb] at hp
        refine ⟨cp', ?_, hmet.level.2.mpr hlv0⟩
        rw [r6]
        exact u1)
      q2 q3 q4 hn hc ht hd hi hlo reason (by rw [hin, q1a, q1b])
    rw [q5] at this
    rw [this, e3, e4]

end

/-- C114.  Whatever is requested: the server switches protocols only if this has been asked for, and then it answers one of the keys that have been sent; or else it tells that the connection is to be closed, and
which version it supports if the request was for something else (RFC 6455, 4.2.2 and 4.4). -/
theorem C114_answer (w : World) (s sp : Ws.Parser) (h : HttpRequest.Headers) (resp : Http.SHeaders) (ha : Verif.WsExchange.answer w s h = some (sp, resp)) :
    (resp.status = 101 → h.method ≠ b! "OPTIONS" ∧ OffersWebSocket (WsServer.texts h) ∧ sp.wshs = .s_accepted ∧ ∃ n key, (n, key) ∈ WsServer.texts h ∧ SameButCase n (b! "Sec-WebSocket-Key") ∧ key.length = 24 ∧
      Only resp.headers (b! "Sec-WebSocket-Accept") (w.digest key) ∧ Only resp.headers (b! "Upgrade") (b! "websocket") ∧ Only resp.headers (b! "Connection") (b! "Upgrade")) ∧
    (resp.status ≠ 101 → (resp.status = 204 ∨ resp.status = 400 ∨ resp.status = 426) ∧ sp.wshs ≠ .s_accepted ∧ Only resp.headers (b! "Connection") (b! "close") ∧
      (resp.status = 426 → Only resp.headers (b! "Sec-WebSocket-Version") (b! "13"))) := by
  have hses := answer_session w s h
  rw [ha] at hses
  have hcases := WsServer.handshake_cases w.values s sp h resp.status hses.symm
  unfold Verif.WsExchange.answer at ha
  split at ha
  · rename_i hm
    split at ha
    · cases ha
    · rename_i hp
      cases ha
      have hp : s.wshs = .pending := by simpa using hp
      refine ⟨fun h => absurd h (by show ¬ (204 = 101); decide), fun _ => ⟨.inl rfl, by rw [hp]; simp, ⟨[], _, b! "Connection", rfl, sbc_self _, absent_names ?_⟩, fun h => absurd h (by show ¬ (204 = 426); decide)⟩⟩
      show ([b! "Allow", b! "Date", b! "Access-Control-Allow-Origin", b! "Access-Control-Allow-Methods", b! "Access-Control-Allow-Headers"].all _) = true
      decide +kernel
  · rename_i hm
    split at ha
    · cases ha
    · split at ha
      · cases ha
        refine ⟨fun h => absurd h (by decide), fun _ => ⟨.inr (.inl rfl), ?_, ⟨[], _, b! "Connection", rfl, sbc_self _, absent_names (by decide +kernel)⟩, fun h => absurd h (by decide)⟩⟩
        rcases hcases with ⟨h1, -⟩ | ⟨-, h1, -⟩ | ⟨-, -, -, h1⟩
        · exact absurd h1 hm
        · exact absurd h1 (by decide)
        · exact h1
      · rename_i q ext hacc _ st hst
        split at ha
        · rename_i hq
          cases ha
          refine ⟨fun _ => ?_, fun h => absurd rfl h⟩
          rcases hcases with ⟨h1, -⟩ | ⟨h1, -, h2, h3⟩ | ⟨-, h1, -⟩
          · exact absurd h1 hm
          · have hne : st.key ≠ [] := by
              intro hk
              unfold Ws.accept_handshake_request at hacc
              split at hacc
              · cases hacc
              · rename_i hp
                have hp : s.wshs = .pending := by simpa using hp
                dsimp only [Ws.Parser.fail] at hacc
                rw [hst] at hacc
                dsimp only at hacc
                rw [if_pos (by simp [hk])] at hacc
                cases hacc
                rw [hp] at hq
                cases hq
            rcases hs_key w.values _ _ _ _ hst with hk | ⟨n, k1, k2, k3⟩
            · exact absurd hk hne
            · have hn : (Ws.handshake_response w.date (w.digest st.key) ext).map Prod.fst = [b! "Connection", b! "Upgrade", b! "Date", b! "Expires", b! "Sec-WebSocket-Accept"] ++ (if ext.isSome then [b! "Sec-WebSocket-Extensions"] else []) := by
                unfold Ws.handshake_response
                cases ext <;> rfl
              refine ⟨hm, h3, h2, n, st.key, k1, k2, k3, ?_, ?_, ?_⟩
              · refine ⟨(Ws.handshake_response w.date (w.digest st.key) ext).take 4, (Ws.handshake_response w.date (w.digest st.key) ext).drop 5, b! "Sec-WebSocket-Accept", by unfold Ws.handshake_response; simp, sbc_self _, absent_names ?_⟩
                rw [List.map_append, List.map_take, List.map_drop, hn]
                cases ext.isSome <;> decide +kernel
              · refine ⟨(Ws.handshake_response w.date (w.digest st.key) ext).take 1, (Ws.handshake_response w.date (w.digest st.key) ext).drop 2, b! "Upgrade", by unfold Ws.handshake_response; simp, sbc_self _, absent_names ?_⟩
                rw [List.map_append, List.map_take, List.map_drop, hn]
                cases ext.isSome <;> decide +kernel
              · refine ⟨[], (Ws.handshake_response w.date (w.digest st.key) ext).drop 1, b! "Connection", by unfold Ws.handshake_response; simp, sbc_self _, absent_names ?_⟩
                rw [List.map_append, List.map_drop, hn]
                cases ext.isSome <;> decide +kernel
          · exact absurd rfl h1
        · rename_i hq
          cases ha
          refine ⟨fun h => absurd h (by decide), fun _ => ⟨.inr (.inr rfl), hq, ⟨[], _, b! "Connection", rfl, sbc_self _, absent_names (by decide +kernel)⟩, fun _ => ⟨[(b! "Connection", b! "close"), (b! "Upgrade", b! "websocket")], [], b! "Sec-WebSocket-Version", rfl, sbc_self _, absent_names (by decide +kernel)⟩⟩⟩

/-! ### Examples -/

/-- Values that are handed over, and an address. -/
def meetWorld : World := { values := plainLib, digest := fun _ => demoAccept, date := b! "Sun, 06 Nov 1994 08:49:37 GMT", status_str := fun _ => b! "Switching Protocols" }
def meetParts : RefParts := ⟨false, b! "example.com", none, some (b! "/chat"), some (b! "a=b"), some (b! "top")⟩
def meetPlan : Plan := { host := b! "example.com", port := 80, default_host := b! "example.com:80", path := b! "/chat", query := b! "a=b" }
def meetCfg : HttpRequest.Cfg := { max_header_length := 1000, max_content_length := 1000 }

theorem meet_sane : Sane meetWorld demoKey :=
  ⟨⟨by decide, by decide, fieldText_of _ (by decide) (by decide) (by decide)⟩, ⟨by decide, by decide, fieldText_of _ (by decide) (by decide) (by decide)⟩, fieldText_of _ (by decide) (by decide) (by decide), by decide⟩

theorem meet_address : Address .ws meetParts meetPlan := by
  refine ⟨.inl rfl, ⟨by decide, by decide +kernel, by simp [meetParts], ?_, ?_, ?_⟩, rfl, ?_, by decide +kernel⟩
  · rintro t ⟨⟩; exact ⟨⟨b! "chat", rfl⟩, by decide +kernel⟩
  · rintro t ⟨⟩; decide +kernel
  · rintro t ⟨⟩; decide +kernel
  · rintro ⟨a, b, h⟩
    have h1 : (58 : Byte) ∈ a ++ b! "://" ++ b := by simp
    rw [← h] at h1
    revert h1
    decide

example : meetParts.text = b! "example.com/chat?a=b#top" := by decide

/-- What is sent. -/
def meetRequest : Bytes := ws_request meetPlan [] demoKey
def meetReply : Bytes := (match Verif.WsExchange.answer meetWorld { max_message_length := 200, default_compression_level := 8 } (asked meetPlan.default_host meetParts demoKey) with
  | some (_, resp) => answer_text meetWorld resp
  | none => [])

example : meetRequest = b! "GET /chat?a=b HTTP/1.1\r\nConnection: Upgrade\r\nUpgrade: websocket\r\nSec-WebSocket-Version: 13\r\nSec-WebSocket-Key: dGhlIHNhbXBsZSBub25jZQ==\r\nSec-WebSocket-Extensions: permessage-deflate; client_max_window_bits\r\nHost: example.com:80\r\n\r\n" := by
  decide +kernel
example : meetReply = b! "HTTP/1.1 101 Switching Protocols\r\nConnection: Upgrade\r\nUpgrade: websocket\r\nDate: Sun, 06 Nov 1994 08:49:37 GMT\r\nExpires: 0\r\nSec-WebSocket-Accept: s3pPLMBiTxaQ9kYGzzhZRbK+xOo=\r\nSec-WebSocket-Extensions: permessage-deflate\r\n\r\n" := by
  decide +kernel
example : meetRequest.length ≤ 1000 ∧ meetReply.length ≤ 1000 := by decide +kernel

/-- The ends of the connection, where messages may have 200 bytes. -/
abbrev meetServer := server { values := plainLib, env := withInflator WsPeers.demoEnv Toy.inflator (fun _ r => r) 200 500, inflator := Toy.iInit, parser := { max_message_length := 200, default_compression_level := 8 } } meetCfg (lineLib readRequest) fun _ => ({}, LineState.head [] [])
abbrev meetClient := client { values := plainLib, env := withInflator { WsPeers.demoEnv with server := false } Toy.inflator (fun _ r => r) 200 500, inflator := Toy.iInit, parser := { wshs := .c_req_sent, max_message_length := 200, default_compression_level := 8 }, accept := demoAccept } meetCfg (lineLib readReply)
  (b! "example.com:80", b! "/chat", b! "a=b", b! "top") fun _ => ({}, LineState.head [] [])

/-- What threads of the client have sent (see C107), and the same from threads of the server. -/
def meetBack : List Bytes := ((Peer.run { WsPeers.demoSender with server := true } 200 { strm := Toy.dInit } WsPeers.demoActs).map (·.wire)).getD []
example : WsPeers.demoWire.length = 5 ∧ meetBack.length = 5 ∧ (meetBack.map compressed) = [false, true, true, false, false] ∧ WsPeers.demoWire ≠ meetBack := by decide +kernel

/-- A head in two pieces, the second of which brings a frame, too; then another frame, and then the others, and the end. -/
def meetInput (head : Bytes) (frames : List Bytes) : List In :=
  .connected :: ([head.take 30] ++ [head.drop 30 ++ (frames.take 1).flatten] ++ [(frames.drop 1).take 1, frames.drop 2].map List.flatten).map .read ++ [.closed (b! "bye")]
def meetActs (head : Bytes) (frames : List Bytes) : List (NAct WMsg) :=
  [.easy (.accept 100), .socket 0 .connected, .socket 0 (.read (head.take 30)), .socket 0 (.read (head.drop 30 ++ (frames.take 1).flatten)), .push .no, .easy (.resume 0), .push .no, .easy (.loop 0), .socket 0 (.read ((frames.drop 1).take 1).flatten), .push .no,
    .easy (.back 0 0), .easy (.loop 0), .easy (.back 0 0), .easy (.loop 0), .socket 0 (.read (frames.drop 2).flatten), .push .no, .push .no, .easy (.back 0 0), .easy (.loop 0), .easy (.back 0 0), .easy (.loop 0), .socket 0 (.closed (b! "bye")), .easy (.back 0 0), .easy (.loop 0)]

/-- What the callbacks are to be called for, after the opening. -/
def meetSeen : List (Event WMsg) :=
  [{ ty := .other, data := b! "hello", msg := some .text }, { ty := .other, data := List.replicate 70 65, msg := some .text }, { ty := .other, data := List.replicate 80 66, msg := some .binary }, { ty := .close, data := b! "4000: bye" }]

example : Quiet WsPeers.demoEnv 200 ∧ Quiet { WsPeers.demoEnv with server := false } 200 ∧ (∀ t, WsPeers.demoEnv.on_accepted t = false) ∧ Ws.WindowTexts meetWorld.values :=
  ⟨⟨fun _ _ _ => rfl, fun _ _ _ => by simp [WsPeers.demoEnv], fun _ => rfl, fun _ _ _ => rfl⟩, ⟨fun _ _ _ => rfl, fun _ _ _ => by simp [WsPeers.demoEnv], fun _ => rfl, fun _ _ _ => rfl⟩, fun _ => rfl, plainLib_windows⟩

example : ∃ sp cp, Shaken meetWorld demoKey (asked meetPlan.default_host meetParts demoKey) { max_message_length := 200, default_compression_level := 8 } { wshs := .c_req_sent, max_message_length := 200, default_compression_level := 8 } sp cp ∧
    sender false cp Toy.deflator (fun _ r => r) = WsPeers.demoSender ∧ sender true sp Toy.deflator (fun _ r => r) = { WsPeers.demoSender with server := true } := by
  obtain ⟨port, -, -, -, sp, cp, resp, h1, h2, -, h3, h4⟩ := C114_handshake_partial meetWorld plainLib_windows demoKey meet_sane .ws meetParts meetPlan meet_address [] meetCfg meetCfg 1000 1000 _ _ (lineLib_switch_requests 1000)
    (lineLib_switch_replies 1000) 200 200 8 8 (by decide) (by decide) (by decide +kernel)
  exact ⟨sp, cp, ⟨resp, h1, h2, h3⟩, by simp [sender, h4.send.2, h4.takeover.2, WsPeers.demoSender], by simp [sender, h4.send.1, h4.takeover.1, WsPeers.demoSender]⟩

example : ∃ n : Net meetServer, Reachable n ∧ n.easy.careful = true ∧ n.todo = [] ∧ (∀ x ∈ n.easy.fibs, x.st = .done) ∧ 0 < n.easy.count ∧ n.input 0 = meetInput meetRequest WsPeers.demoWire ∧
    handled n.easy.trace 0 = opened (b! "example.com:80/chat?a=b") :: meetSeen := by
  obtain ⟨n, h1, h2⟩ := demo_of (o := run ({ easy := { careful := true } } : Net meetServer) (meetActs meetRequest WsPeers.demoWire))
    (fun n => n.easy.careful && n.todo.isEmpty && n.easy.fibs.all (fun x => x.st == .done) && decide (0 < n.easy.count) && n.input 0 == meetInput meetRequest WsPeers.demoWire &&
      handled n.easy.trace 0 == opened (b! "example.com:80/chat?a=b") :: meetSeen) (by decide +kernel)
  simp only [Bool.and_eq_true, beq_iff_eq, List.all_eq_true, decide_eq_true_eq, List.isEmpty_iff] at h2
  obtain ⟨⟨⟨⟨⟨h3, h4⟩, h5⟩, h6⟩, h7⟩, h8⟩ := h2
  exact ⟨n, net_run_reachable (.init true) h1, h3, h4, h5, h6, h7, h8⟩

example : ∃ n : Net meetClient, Reachable n ∧ n.easy.careful = true ∧ n.todo = [] ∧ (∀ x ∈ n.easy.fibs, x.st = .done) ∧ 0 < n.easy.count ∧ n.input 0 = meetInput meetReply meetBack ∧
    handled n.easy.trace 0 = opened (b! "example.com:80/chat?a=b#top") :: meetSeen := by
  obtain ⟨n, h1, h2⟩ := demo_of (o := run ({ easy := { careful := true } } : Net meetClient) (meetActs meetReply meetBack))
    (fun n => n.easy.careful && n.todo.isEmpty && n.easy.fibs.all (fun x => x.st == .done) && decide (0 < n.easy.count) && n.input 0 == meetInput meetReply meetBack &&
      handled n.easy.trace 0 == opened (b! "example.com:80/chat?a=b#top") :: meetSeen) (by decide +kernel)
  simp only [Bool.and_eq_true, beq_iff_eq, List.all_eq_true, decide_eq_true_eq, List.isEmpty_iff] at h2
  obtain ⟨⟨⟨⟨⟨h3, h4⟩, h5⟩, h6⟩, h7⟩, h8⟩ := h2
  exact ⟨n, net_run_reachable (.init true) h1, h3, h4, h5, h6, h7, h8⟩

-- other answers
example : ((Verif.WsExchange.answer meetWorld {} { method := b! "GET" }).map fun r => r.2.status) = some 426 ∧ ((Verif.WsExchange.answer meetWorld {} { method := b! "OPTIONS" }).map fun r => r.2.status) = some 204 ∧
    ((Verif.WsExchange.answer meetWorld {} { method := b! "GET", headers := [(b! "Connection", some (b! "close"))] }).map fun r => r.2.status) = some 400 := by decide +kernel

end Verif.Props
