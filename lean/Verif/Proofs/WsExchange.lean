import Verif.Spec.WsExchange
import Verif.Proofs.HttpLineLib
import Verif.Proofs.HttpExchangeAll
import Verif.Props.EasyConnect
import Verif.Props.WsClient
/-! # The handshake between two ends of a WebSocket connection -/
namespace Verif.WsExchange
open Verif.HttpLib Verif.HttpExchange Verif.Spec Verif.Spec.WsExchange
open Verif.Http (ascii_lower)
open Verif.HttpRequest (slashed nonEmpty)
open Verif.EasyConnect (Kind Plan host_text ws_request)

/-! ### Libraries -/

theorem switch_keep {fs : List (Bytes × Bytes)} (h : Switches fs) : keepOf fs = true ∧ frameOf fs = .none := by
  refine ⟨?_, by simp [frameOf, any_absent h.coding, find_absent h.length]⟩
  obtain ⟨a, b, n, rfl, h1, h2⟩ := h.connection
  simp only [keepOf, Bool.not_eq_true', List.any_eq_false, Bool.and_eq_true, decide_eq_true_eq, not_and]
  intro f hf hn
  have hf' : f = (n, b! "Upgrade") := by
    simp only [List.mem_append, List.mem_cons] at hf
    rcases hf with hf | hf | hf
    · exact absurd ((isName_iff _ _).mp hn) (h2 f (by simp [hf]))
    · exact hf
    · exact absurd ((isName_iff _ _).mp hn) (h2 f (by simp [hf]))
  rw [hf']
  show ¬ (b! "Upgrade").map ascii_lower = b! "close"
  decide

/-- The contract can be met. -/
theorem lineLib_switch_requests (limit : Nat) : ReadsSwitchRequests limit (lineLib readRequest) := by
  intro o fs ho hf hg hsw head hhead _
  have htp : ∀ c ∈ o.text, c ≠ 32 ∧ c ≠ 10 := origin_plain ho hf
  let ls := (b! "GET" ++ b! " " ++ o.text ++ b! " HTTP/1.1") :: fs.map (fun f => f.1 ++ b! ": " ++ f.2)
  have hls : ∀ x ∈ ls, (10 : Byte) ∉ x ∧ x ≠ [] := by
    intro x hx
    rcases List.mem_cons.mp hx with rfl | hx
    · refine ⟨?_, by simp⟩
      intro h
      simp only [List.mem_append] at h
      rcases h with ((h | h) | h) | h
      · revert h; decide
      · revert h; decide
      · exact (htp _ h).2 rfl
      · revert h; decide
    · exact field_line hg x hx
  have h1 := head_lines readRequest ls [] hls
  let i : HeadInfo := { data := .url o.text :: fs.flatMap (fun f => [.field f.1, .value f.2]), method := b! "GET", status := 0, keep := true, frame := .none }
  have hread : readRequest ls = some i := by
    have e1 := take_stop (p := fun c : Byte => decide (c ≠ 32)) (a := b! "GET") (x := 32) (r := o.text ++ b! " HTTP/1.1") (by decide) (by simp)
    have e2 := take_stop (p := fun c : Byte => decide (c ≠ 32)) (a := o.text) (x := 32) (r := b! "HTTP/1.1") (fun y hy => by simpa using (htp y hy).1) (by simp)
    have e3 : b! "GET" ++ b! " " ++ o.text ++ b! " HTTP/1.1" = b! "GET" ++ 32 :: (o.text ++ b! " HTTP/1.1") := by simp
    have e4 : o.text ++ b! " HTTP/1.1" = o.text ++ 32 :: b! "HTTP/1.1" := rfl
    simp only [readRequest, ls, split_all hg, e3, e1.1, e1.2, List.drop_one, List.tail_cons]
    rw [e4, e2.1, (switch_keep hsw).1, (switch_keep hsw).2]
  obtain ⟨h2, h3⟩ := head_end readRequest ls i hread
  have h4 := emits_trans h1 h2
  obtain ⟨w3, e, d3, d4, s3, g1, g2, g3, g4⟩ := none_all readRequest
  have e1 : head = ls.flatMap (fun x => x ++ b! "\r\n") ++ [13] ++ [10] := by
    have : head = (b! "GET" ++ b! " " ++ o.text ++ b! " HTTP/1.1") ++ b! "\r\n" ++ fieldLines fs := by rw [hhead]; simp
    rw [this, lines_eq]; simp [ls]
  refine ⟨[o.text], fs.map (fun f => ([f.1], [f.2])), LineState.head [] [], by simp, singles _, single_ne _, ?_, ls.flatMap (fun x => x ++ b! "\r\n") ++ [13], 10, _, _, e1, h4⟩
  refine ⟨ls.flatMap (fun x => x ++ b! "\r\n") ++ [13], 10, [], _, _, _, _, 0, w3, e, d3, d4, s3, e1, g1, h4, h3, ?_, g2, g3, g4⟩
  simp [headCalls, i, List.flatMap_map]

/-- The contract can be met. -/
theorem lineLib_switch_replies (limit : Nat) : ReadsSwitchReplies limit (lineLib readReply) := by
  intro reason fs hrs hg hsw head hhead _
  have hrp : (10 : Byte) ∉ reason := by
    intro h
    rcases hrs _ h with h | ⟨h, _⟩
    · exact absurd h (by decide)
    · exact absurd h (by decide)
  let ls := (b! "HTTP/1.1 101 " ++ reason) :: fs.map (fun f => f.1 ++ b! ": " ++ f.2)
  have hls : ∀ x ∈ ls, (10 : Byte) ∉ x ∧ x ≠ [] := by
    intro x hx
    rcases List.mem_cons.mp hx with rfl | hx
    · refine ⟨?_, by simp⟩
      intro h
      simp only [List.mem_append] at h
      rcases h with h | h
      · revert h; decide
      · exact hrp h
    · exact field_line hg x hx
  have h1 := head_lines readReply ls [] hls
  let i : HeadInfo := { data := .status 101 reason :: fs.flatMap (fun f => [.field f.1, .value f.2]), method := [], status := 101, keep := true, frame := .none }
  have hread : readReply ls = some i := by
    have e1 : ((b! "HTTP/1.1 101 " ++ reason).drop 9).take 3 = b! "101" := by simp
    have e2 : (b! "HTTP/1.1 101 " ++ reason).drop 13 = reason := by simp
    have e3 : decVal (b! "101") = 101 := by decide
    simp only [readReply, ls, split_all hg, e1, e2, e3, (switch_keep hsw).1, i]
    rfl
  obtain ⟨h2, h3⟩ := head_end readReply ls i hread
  have h4 := emits_trans h1 h2
  obtain ⟨w3, e, d3, d4, s3, g1, g2, g3, g4⟩ := none_all readReply
  have e1 : head = ls.flatMap (fun x => x ++ b! "\r\n") ++ [13] ++ [10] := by
    have : head = (b! "HTTP/1.1 101 " ++ reason) ++ b! "\r\n" ++ fieldLines fs := by rw [hhead]
    rw [this, lines_eq]; simp [ls]
  refine ⟨[reason], fs.map (fun f => ([f.1], [f.2])), LineState.head [] [], by simp, by simp, singles _, single_ne _, ?_, ls.flatMap (fun x => x ++ b! "\r\n") ++ [13], 10, _, _, e1, h4⟩
  refine ⟨ls.flatMap (fun x => x ++ b! "\r\n") ++ [13], 10, [], _, _, _, _, [], 101, d3, s3, e1, h4, h3, ?_, ?_⟩
  · simp [replyCalls, i, List.flatMap_map]
  · simp only [Bool.false_eq_true, if_false]
    exact ⟨w3, e, d4, g1, g2, g3, g4⟩

/-! ### The request -/

/-- Texts of printable characters. -/
theorem fieldText_graph {v : Bytes} (h : ∀ c ∈ v, 33 ≤ c.toNat ∧ c ≠ 127) : FieldText v := by
  have h2 : ∀ c ∈ v, c ≠ 9 ∧ c ≠ 32 := by
    intro c hc
    have := (h c hc).1
    constructor <;> rintro rfl <;> revert this <;> decide
  refine ⟨fun c hc => .inr ⟨by have := (h c hc).1; omega, (h c hc).2⟩, fun c t e => h2 c (by rw [e]; simp), fun c t e => h2 c (by rw [e]; simp)⟩

theorem fieldText_of (v : Bytes) (h : v.all (fun c => decide (c = 9 ∨ 32 ≤ c.toNat ∧ c ≠ 127)) = true) (h1 : v.head?.all (fun c => decide (c ≠ 9 ∧ c ≠ 32)) = true) (h2 : v.getLast?.all (fun c => decide (c ≠ 9 ∧ c ≠ 32)) = true) : FieldText v := by
  refine ⟨fun c hc => by simpa using List.all_eq_true.mp h c hc, ?_, ?_⟩
  · rintro c t rfl; simpa using h1
  · rintro c t rfl; simpa using h2

theorem host_text_field (host : Bytes) (port : Nat) (h : ∀ c ∈ host, c ∈ hostChars) : FieldText (host_text host port) := by
  have e1 : ∀ c ∈ hostChars, 33 ≤ c.toNat ∧ c ≠ 127 := by decide +kernel
  have e2 : ∀ c ∈ Http.decimal port, 33 ≤ c.toNat ∧ c ≠ 127 := by
    have hd := Http.decimal_decNum port
    generalize Http.decimal port = d at hd
    induction hd with
    | nil => intro c hc; cases hc
    | snoc v _ hv ih =>
      intro c hc
      rcases List.mem_append.mp hc with hc | hc
      · exact ih c hc
      · obtain rfl := List.mem_singleton.mp hc
        have : ∀ v : Fin 10, 33 ≤ (UInt8.ofNat (0x30 + v.val)).toNat ∧ UInt8.ofNat (0x30 + v.val) ≠ 127 := by decide
        exact this ⟨v, hv⟩
  apply fieldText_graph
  intro c hc
  simp only [host_text, List.mem_append] at hc
  rcases hc with (hc | hc) | hc
  · exact e1 c (h c hc)
  · obtain rfl := List.mem_singleton.mp hc; decide
  · exact e2 c hc

/-- The fields of the request. -/
def requestFields (plan : Plan) (key : Bytes) : List (Bytes × Bytes) := Ws.handshake_request key ++ [(b! "Host", plan.default_host)]

theorem address_plan {k : Kind} {p : RefParts} {plan : Plan} (h : Address k p plan) :
    ∃ port, meantPort k p = some port ∧ plan.default_host = host_text p.host port ∧ plan.path = p.path.getD [] ∧ plan.query = p.query.getD [] := by
  have hc := h.connect
  rw [Props.connect_text k p h.valid] at hc
  cases hp : meantPort k p with
  | none => rw [hp] at hc; cases hc
  | some port =>
    rw [hp] at hc
    refine ⟨port, rfl, ?_⟩
    rcases h.kind with rfl | rfl <;> simp only at hc <;> cases hc <;> exact ⟨rfl, rfl, rfl⟩

/-- What the server reads from the request. -/
abbrev requestHeaders (p : RefParts) (plan : Plan) (key : Bytes) : HttpRequest.Headers := asked plan.default_host p key

/-- The target of the request. -/
def targetOf (plan : Plan) : OriginForm := ⟨slashed plan.path, nonEmpty plan.query, none⟩

theorem target_valid {k : Kind} {p : RefParts} {plan : Plan} (h : Address k p plan) : (targetOf plan).Valid ∧ ¬ Occurs (b! "://") (targetOf plan).text ∧
    slashed plan.path = p.path.getD (b! "/") ∧ (nonEmpty plan.query).getD [] = p.query.getD [] := by
  obtain ⟨port, -, -, hp, hq⟩ := address_plan h
  refine ⟨⟨HttpRequest.slashed_start _, HttpRequest.slashed_chars _ ?_, ?_, by simp [targetOf]⟩, occurs_target (by rw [hp, hq]; exact h.scheme), ?_, by rw [HttpRequest.nonEmpty_getD, hq]⟩
  · rw [hp]
    cases hp' : p.path with
    | none => simp
    | some t => exact (h.valid.path_chars t hp').2
  · intro t ht x hx
    have ht : nonEmpty plan.query = some t := ht
    rw [HttpRequest.nonEmpty_some ht, hq] at hx
    cases hq' : p.query with
    | none => rw [hq'] at hx; simp at hx
    | some u => rw [hq'] at hx; exact h.valid.query_chars u hq' x hx
  · rw [hp]
    cases hp' : p.path with
    | none => rfl
    | some t =>
      obtain ⟨⟨t', rfl⟩, _⟩ := h.valid.path_chars t hp'
      rfl

theorem request_names (key : Bytes) : (Ws.handshake_request key).map Prod.fst = [b! "Connection", b! "Upgrade", b! "Sec-WebSocket-Version", b! "Sec-WebSocket-Key", b! "Sec-WebSocket-Extensions"] := rfl

theorem no_host (key : Bytes) : ∀ hr ∈ (Ws.handshake_request key).map (fun x => (x.1, some x.2)), ¬ SameButCase hr.1 (b! "Host") := by
  intro hr hm hc
  have hm' : hr.1 ∈ (Ws.handshake_request key).map Prod.fst := by
    obtain ⟨x, hx, rfl⟩ := List.mem_map.mp hm
    exact List.mem_map_of_mem hx
  rw [request_names] at hm'
  rw [← HttpRequest.name_eq_iff] at hc
  simp only [List.mem_cons, List.not_mem_nil, or_false] at hm'
  rcases hm' with h | h | h | h | h <;> rw [h] at hc <;> revert hc <;> decide +kernel

theorem request_text {k : Kind} {p : RefParts} {plan : Plan} (h : Address k p plan) (remote key : Bytes) :
    ws_request plan remote key = b! "GET " ++ (targetOf plan).text ++ b! " HTTP/1.1\r\n" ++ fieldLines (requestFields plan key) := by
  obtain ⟨port, -, hd, -, -⟩ := address_plan h
  have hdne : plan.default_host ≠ [] := by rw [hd, host_text]; simp
  have e0 : ∀ x : Bytes, x = x ++ [] := by simp
  unfold ws_request
  rw [e0 (HttpRequest.encode _), set_host_eq _ rfl]
  rw [encode_eq _ (b! "GET") (targetOf plan).text ?_ ?_ (requestFields plan key) ?_ ?_ [], List.append_nil]
  · rfl
  · rfl
  · exact HttpRequest.target_eq _ rfl
  · have e : Exchange.hostOf remote plan.default_host { method := b! "GET", raw_path := plan.path, raw_query := plan.query, headers := (Ws.handshake_request key).map (fun x => (x.1, some x.2)) } = plan.default_host := by
      simp [Exchange.hostOf, hdne]
    simp only [hosted, e]
    rw [HttpRequest.setHost_none _ _ (no_host key), texts_append]
    simp only [requestFields, Exchange.texts, List.map_map]
    congr 1
  · intro f hf
    simp only [requestFields, List.mem_append, List.mem_singleton] at hf
    rcases hf with hf | rfl
    · simp only [Ws.handshake_request, List.mem_cons, List.not_mem_nil, or_false] at hf
      rcases hf with rfl | rfl | rfl | rfl | rfl <;> simp
    · simp

theorem request_good {k : Kind} {p : RefParts} {plan : Plan} (h : Address k p plan) {w : World} {key : Bytes} (hs : Sane w key) : GoodFields (requestFields plan key) := by
  obtain ⟨port, -, hd, -, -⟩ := address_plan h
  have hhost : ∀ c ∈ p.host, c ∈ hostChars := by simpa [h.plain] using h.valid.host_chars
  intro f hf
  simp only [requestFields, Ws.handshake_request, List.mem_append, List.mem_cons, List.not_mem_nil, or_false] at hf
  rcases hf with (rfl | rfl | rfl | rfl | rfl) | rfl
  · exact ⟨by simp, by decide +kernel, fieldText_of _ (by decide) (by decide) (by decide)⟩
  · exact ⟨by simp, by decide +kernel, fieldText_of _ (by decide) (by decide) (by decide)⟩
  · exact ⟨by simp, by decide +kernel, fieldText_of _ (by decide) (by decide) (by decide)⟩
  · exact ⟨by simp, (by show ∀ c ∈ b! "Sec-WebSocket-Key", c ∈ tokenChars; decide +kernel), hs.request.2.2⟩
  · exact ⟨by simp, by decide +kernel, fieldText_of _ (by decide) (by decide) (by decide)⟩
  · exact ⟨by simp, host_token, hd ▸ host_text_field _ _ hhost⟩

/-- Fields with these names. -/
theorem absent_names {fs : List (Bytes × Bytes)} {n : Bytes} (h : (fs.map Prod.fst).all (fun m => decide (m.map ascii_lower ≠ n.map ascii_lower)) = true) : Absent fs n := by
  intro f hf hc
  rw [Http.sameButCase_iff] at hc
  have := List.all_eq_true.mp h f.1 (List.mem_map_of_mem hf)
  simp only [decide_eq_true_eq] at this
  exact this hc

theorem request_switches (plan : Plan) (key : Bytes) : Switches (requestFields plan key) := by
  have e : (requestFields plan key).map Prod.fst = [b! "Connection", b! "Upgrade", b! "Sec-WebSocket-Version", b! "Sec-WebSocket-Key", b! "Sec-WebSocket-Extensions", b! "Host"] := rfl
  refine ⟨⟨[], (requestFields plan key).drop 1, b! "Connection", rfl, sbc_self _, absent_names ?_⟩, ⟨(requestFields plan key).take 1, (requestFields plan key).drop 2, b! "Upgrade", rfl, sbc_self _, absent_names ?_⟩, absent_names ?_, absent_names ?_, absent_names ?_⟩
  · simp only [List.nil_append, List.map_drop, e]; decide +kernel
  · simp only [List.map_append, List.map_take, List.map_drop, e]; decide +kernel
  all_goals rw [e]; decide +kernel

theorem request_host (plan : Plan) (key : Bytes) : OneHost ((requestFields plan key).map (fun f => (f.1, some f.2))) plan.default_host := by
  refine ⟨(Ws.handshake_request key).map (fun x => (x.1, some x.2)), [], b! "Host", some plan.default_host, by simp [requestFields], rfl, sbc_self _, by simpa using no_host key⟩

/-- The request is a good one. -/
theorem request_reads {L : Lib} {limit : Nat} (hL : ReadsSwitchRequests limit L) {c : HttpRequest.Cfg} {k : Kind} {p : RefParts} {plan : Plan} (h : Address k p plan) {w : World} {remote key : Bytes} (hs : Sane w key)
    (hlen : (ws_request plan remote key).length ≤ limit ∧ (ws_request plan remote key).length ≤ c.max_header_length) :
    ∃ (r : Request) (st : L.σ), r.Good L c L.init st ∧ EndsWithHead L L.init r.wire ∧ r.keep = true ∧ r.wire = ws_request plan remote key ∧ r.headers = requestHeaders p plan key := by
  obtain ⟨t1, t2, t3, t4⟩ := target_valid h
  have et := request_text h remote key
  obtain ⟨url, fields, st', h1, h2, h3, h4, h5⟩ := hL (targetOf plan) (requestFields plan key) t1 rfl (request_good h hs) (request_switches plan key) _ et hlen.1
  obtain ⟨port, -, hd, -, -⟩ := address_plan h
  refine ⟨⟨ws_request plan remote key, url, fields, [], b! "GET", true, requestHeaders p plan key⟩, st', ⟨h4, h3, ?_, by simp, by simp, ?_, ?_, fun _ => rfl⟩, h5, rfl, rfl, rfl⟩
  · have e1 : headSize url fields ≤ (ws_request plan remote key).length := by
      unfold headSize
      rw [et, h1, ← h2]
      simp only [List.length_append, flat_size]
      omega
    exact Nat.le_trans e1 hlen.2
  · show HttpRequest.parse_target { method := b! "GET", headers := fields.map (fun h => (h.1.flatten, some h.2.flatten)) } url.flatten = _
    rw [flat_some, h2, h1, HttpRequest.target_origin _ _ _ t1 _ (request_host plan key) t2]
    simp only [targetOf, t3, t4, requestHeaders, asked]
    rfl
  · show plan.default_host ≠ []
    rw [hd, host_text]; simp

theorem request_texts (p : RefParts) (plan : Plan) (key : Bytes) : WsServer.texts (requestHeaders p plan key) = requestFields plan key := by
  simp only [WsServer.texts, requestHeaders, asked, List.map_map]
  conv => rhs; rw [← List.map_id (requestFields plan key)]
  rfl

/-! ### The handshake -/

/-- Hosts are ignored. -/
theorem hs_host (V : Http.Lib) (strict : Bool) (level : Nat) (host : Bytes) (fs : List (Bytes × Bytes)) : ∀ st, Ws.hs_headers V strict level (fs ++ [(b! "Host", host)]) st = Ws.hs_headers V strict level fs st := by
  induction fs with
  | nil => intro st; cases strict <;> rfl
  | cons x t ih =>
    intro st
    simp only [List.cons_append, Ws.hs_headers, ih]

theorem extensions_zero {V : Http.Lib} (fuel : Nat) : ∀ (q : Http.HeaderParser V) (p : Ws.Pmd), Ws.extensions false 0 fuel q p = some p := by
  induction fuel with
  | zero => intro q p; rfl
  | succ n ih =>
    intro q p
    unfold Ws.extensions
    split
    · rfl
    · have e : ∀ q' : Http.HeaderParser V, Ws.use_permessage_deflate q' 0 p = (q', p) := by
        intro q'; unfold Ws.use_permessage_deflate; simp
      simp only [e, ih, Bool.false_eq_true, if_false, ite_self]

theorem request_state (V : Http.Lib) (lv : Nat) (hlv : lv ≤ 9) (key : Bytes) (hk : key.length = 24) :
    Ws.hs_headers V false lv (Ws.handshake_request key) {} = some { upgrade_ok := true, ws_version_ok := true, key := key, pmce := { compression_level := lv } } := by
  by_cases h : lv = 0
  · have h0 : ∀ hs, Ws.hs_headers V false lv ([(b! "Connection", b! "Upgrade"), (b! "Upgrade", b! "websocket"), (b! "Sec-WebSocket-Version", b! "13"), (b! "Sec-WebSocket-Key", key)] ++ hs) {} =
        Ws.hs_headers V false lv hs (if key.length = 24 then { upgrade_ok := true, ws_version_ok := true, key := key } else { upgrade_ok := true, ws_version_ok := true }) := by
      intro hs; rfl
    have h' : Ws.hs_headers V false lv [(b! "Sec-WebSocket-Extensions", b! "permessage-deflate; client_max_window_bits")] { upgrade_ok := true, ws_version_ok := true, key := key } =
        (match Ws.extensions false lv 44 (Http.HeaderParser.reload V (b! "permessage-deflate; client_max_window_bits")) {} with
          | none => none
          | some p => some { upgrade_ok := true, ws_version_ok := true, key := key, pmce := p }) := by rfl
    have hr := h0 [(b! "Sec-WebSocket-Extensions", b! "permessage-deflate; client_max_window_bits")]
    rw [if_pos hk, h'] at hr
    refine Eq.trans hr ?_
    subst h
    rw [extensions_zero]
  · rw [Ws.request_headers V lv h key hk, Nat.mod_eq_of_lt (by omega)]

/-- The extensions that the server answers. -/
def extOf (lv : Nat) : Option Bytes := if lv = 0 then none else some (b! "permessage-deflate")

theorem plain_answer (V : Http.Lib) (lv : Nat) : Ws.pmce_answer V { compression_level := lv } = b! "permessage-deflate" := rfl

theorem server_meets (w : World) (max lv : Nat) (hlv : lv ≤ 9) (p : RefParts) (plan : Plan) (key : Bytes) (hs : Sane w key) :
    ∃ sp, Ws.accept_handshake_request w.values { max_message_length := max, default_compression_level := lv } (requestFields plan key) = some (sp, extOf lv) ∧
      answer w { max_message_length := max, default_compression_level := lv } (requestHeaders p plan key) =
        some (sp, { status := 101, reason := [], headers := Ws.handshake_response w.date (w.digest key) (extOf lv) }) ∧ sp.wshs = .s_accepted ∧
      sp.pmce_send_window_bits = (if lv = 0 then 0 else 15) ∧ sp.pmce_receive_window_bits = (if lv = 0 then 0 else 15) ∧ sp.pmce_send_no_context_takeover = false ∧ (sp.pmce_compression_level_m2 ≠ 0 ↔ lv ≠ 0) := by
  have hst : Ws.hs_headers w.values false lv (requestFields plan key) {} = some { upgrade_ok := true, ws_version_ok := true, key := key, pmce := { compression_level := lv } } := by
    rw [requestFields, hs_host, request_state w.values lv hlv key hs.request.1]
  have hk0 := hs.request.2.1
  have hacc : ∃ sp, Ws.accept_handshake_request w.values { max_message_length := max, default_compression_level := lv } (requestFields plan key) = some (sp, extOf lv) ∧ sp.wshs = .s_accepted ∧
      sp.pmce_send_window_bits = (if lv = 0 then 0 else 15) ∧ sp.pmce_receive_window_bits = (if lv = 0 then 0 else 15) ∧ sp.pmce_send_no_context_takeover = false ∧ (sp.pmce_compression_level_m2 ≠ 0 ↔ lv ≠ 0) := by
    unfold Ws.accept_handshake_request
    rw [if_neg (by simp)]
    dsimp only [Ws.Parser.fail]
    rw [hst]
    dsimp only
    rw [if_neg (by simp; simpa using hk0)]
    by_cases h : lv = 0
    · subst h
      refine ⟨_, rfl, rfl, rfl, rfl, rfl, by simp⟩
    · simp only [ne_eq, h, not_false_eq_true, if_true, if_false, plain_answer]
      have he : extOf lv = some (b! "permessage-deflate") := if_neg h
      rw [he]
      refine ⟨_, rfl, rfl, rfl, rfl, rfl, ?_⟩
      have := Ws.level_range lv
      constructor
      · intro _; trivial
      · intro _; dsimp only; omega
  obtain ⟨sp, h1, h2⟩ := hacc
  refine ⟨sp, h1, ?_, h2⟩
  unfold answer
  rw [request_texts, h1, if_neg (by show ¬ (b! "GET" = b! "OPTIONS"); decide)]
  dsimp only
  rw [hst]
  dsimp only
  rw [if_pos h2.1]

theorem client_meets (w : World) (hV : Ws.WindowTexts w.values) (max lv clv : Nat) (hlv : lv ≤ 9) (hclv : 0 < clv ∧ clv ≤ 9) (key : Bytes) (hs : Sane w key) :
    ∃ cp, Ws.accept_handshake_response w.values (w.digest key) { wshs := .c_req_sent, max_message_length := max, default_compression_level := clv } (Ws.handshake_response w.date (w.digest key) (extOf lv)) = some cp ∧
      cp.wshs = .c_accepted ∧ cp.pmce_send_window_bits = (if lv = 0 then 0 else 15) ∧ cp.pmce_receive_window_bits = (if lv = 0 then 0 else 15) ∧ cp.pmce_send_no_context_takeover = false ∧
      (cp.pmce_compression_level_m2 ≠ 0 ↔ lv ≠ 0) := by
  have hd0 := hs.digest.2.1
  unfold Ws.accept_handshake_response
  rw [if_neg (by simp)]
  dsimp only [Ws.Parser.fail]
  rw [Ws.response_headers w.values _ w.date (w.digest key) hs.digest.1 (extOf lv)]
  by_cases h : lv = 0
  · subst h
    simp only [extOf, if_true]
    rw [if_neg (by simp; simpa using hd0), if_neg (by simp)]
    exact ⟨_, rfl, rfl, rfl, rfl, rfl, by simp⟩
  · simp only [extOf, h, if_false]
    have hx := Ws.answer_extensions hV {} (Ws.pmd_default 0) clv (by omega)
    have e : Ws.pmce_answer w.values {} = b! "permessage-deflate" := rfl
    rw [e] at hx
    simp only [hx]
    rw [if_neg (by simp; simpa using hd0), if_neg (by simp), if_pos (show clv % 256 ≠ 0 by omega)]
    refine ⟨_, rfl, rfl, rfl, rfl, rfl, ?_⟩
    have := Ws.level_range (clv % 256)
    constructor
    · intro _; trivial
    · intro _; dsimp only; omega

/-! ### The response -/

/-- The fields of the response. -/
def replyFields (w : World) (lv : Nat) (key : Bytes) : List (Bytes × Bytes) := Ws.handshake_response w.date (w.digest key) (extOf lv)

theorem replyFields_eq (w : World) (lv : Nat) (key : Bytes) : replyFields w lv key =
    [(b! "Connection", b! "Upgrade"), (b! "Upgrade", b! "websocket"), (b! "Date", w.date), (b! "Expires", b! "0"), (b! "Sec-WebSocket-Accept", w.digest key)] ++
      (if lv = 0 then [] else [(b! "Sec-WebSocket-Extensions", b! "permessage-deflate")]) := by
  unfold replyFields Ws.handshake_response extOf
  by_cases h : lv = 0 <;> simp [h]

theorem reply_good (w : World) (lv : Nat) {key : Bytes} (hs : Sane w key) : GoodFields (replyFields w lv key) := by
  rw [replyFields_eq]
  intro f hf
  have hf : f = (b! "Connection", b! "Upgrade") ∨ f = (b! "Upgrade", b! "websocket") ∨ f = (b! "Date", w.date) ∨ f = (b! "Expires", b! "0") ∨ f = (b! "Sec-WebSocket-Accept", w.digest key) ∨ f = (b! "Sec-WebSocket-Extensions", b! "permessage-deflate") := by
    by_cases h : lv = 0
    · simp only [h, if_true, List.append_nil, List.mem_cons, List.not_mem_nil, or_false] at hf
      rcases hf with h | h | h | h | h <;> simp [h]
    · simp only [h, if_false, List.mem_append, List.mem_cons, List.not_mem_nil, or_false] at hf
      rcases hf with (h | h | h | h | h) | h <;> simp [h]
  rcases hf with rfl | rfl | rfl | rfl | rfl | rfl
  · exact ⟨by simp, by decide +kernel, fieldText_of _ (by decide) (by decide) (by decide)⟩
  · exact ⟨by simp, by decide +kernel, fieldText_of _ (by decide) (by decide) (by decide)⟩
  · exact ⟨by simp, (by show ∀ c ∈ b! "Date", c ∈ tokenChars; decide +kernel), hs.date⟩
  · exact ⟨by simp, by decide +kernel, fieldText_of _ (by decide) (by decide) (by decide)⟩
  · exact ⟨by simp, (by show ∀ c ∈ b! "Sec-WebSocket-Accept", c ∈ tokenChars; decide +kernel), hs.digest.2.2⟩
  · exact ⟨by simp, by decide +kernel, fieldText_of _ (by decide) (by decide) (by decide)⟩

theorem reply_switches (w : World) (lv : Nat) (key : Bytes) : Switches (replyFields w lv key) := by
  have e : (replyFields w lv key).map Prod.fst = [b! "Connection", b! "Upgrade", b! "Date", b! "Expires", b! "Sec-WebSocket-Accept"] ++ (if lv = 0 then [] else [b! "Sec-WebSocket-Extensions"]) := by
    rw [replyFields_eq]
    by_cases h : lv = 0 <;> simp [h]
  have f0 : replyFields w lv key = [] ++ (b! "Connection", b! "Upgrade") :: (replyFields w lv key).drop 1 := by rw [replyFields_eq]; simp
  have f1 : replyFields w lv key = (replyFields w lv key).take 1 ++ (b! "Upgrade", b! "websocket") :: (replyFields w lv key).drop 2 := by rw [replyFields_eq]; simp
  refine ⟨⟨_, _, b! "Connection", f0, sbc_self _, absent_names ?_⟩, ⟨_, _, b! "Upgrade", f1, sbc_self _, absent_names ?_⟩, absent_names ?_, absent_names ?_, absent_names ?_⟩
  · simp only [List.nil_append, List.map_drop, e]; by_cases h : lv = 0 <;> simp only [h, if_true, if_false] <;> decide +kernel
  · simp only [List.map_append, List.map_take, List.map_drop, e]; by_cases h : lv = 0 <;> simp only [h, if_true, if_false] <;> decide +kernel
  all_goals rw [e]; by_cases h : lv = 0 <;> simp only [h, if_true, if_false] <;> decide +kernel

/-- The response is a good one. -/
theorem reply_reads {L : Lib} {limit : Nat} (hL : ReadsSwitchReplies limit L) {c : HttpRequest.Cfg} (w : World) (lv : Nat) {key : Bytes} (hs : Sane w key)
    (hlen : (answer_text w { status := 101, reason := [], headers := replyFields w lv key }).length ≤ limit ∧ (answer_text w { status := 101, reason := [], headers := replyFields w lv key }).length ≤ c.max_header_length) :
    ∃ (r : Client.Response) (st : L.σ), r.Good L c false false L.init st ∧ EndsWithHead L L.init r.wire ∧ r.keep = true ∧ r.status = 101 ∧ r.wire = answer_text w { status := 101, reason := [], headers := replyFields w lv key } ∧
      WsClient.texts r.headers = replyFields w lv key := by
  have hg := reply_good w lv hs
  have et : answer_text w { status := 101, reason := [], headers := replyFields w lv key } = b! "HTTP/1.1 101 " ++ w.status_str 101 ++ b! "\r\n" ++ fieldLines (replyFields w lv key) := by
    unfold answer_text
    rw [raw_eq _ _ (fun f hf => (hg f hf).1)]
    have e : b! "HTTP/1.1 " ++ Http.decimal 101 ++ b! " " = b! "HTTP/1.1 101 " := by decide
    simp only [Exchange.reasonOf, List.append_nil, if_true, e]
  obtain ⟨rs, fields, st', h0, h1, h2, h3, h4, h5⟩ := hL (w.status_str 101) (replyFields w lv key) hs.reason hg (reply_switches w lv key) _ et hlen.1
  refine ⟨⟨answer_text w { status := 101, reason := [], headers := replyFields w lv key }, 101, rs, fields, [], true⟩, st', ⟨h4, h0, h3, ?_, by simp⟩, h5, rfl, rfl, rfl, ?_⟩
  · have e1 : replySize rs fields ≤ (answer_text w { status := 101, reason := [], headers := replyFields w lv key }).length := by
      unfold replySize
      rw [et, h1, ← h2]
      simp only [List.length_append, flat_size]
      simp only [List.length_cons, List.length_nil]
      omega
    exact Nat.le_trans e1 hlen.2
  · simp only [WsClient.texts, Client.Response.headers, flat_some, h2, List.map_map]
    conv => rhs; rw [← List.map_id (replyFields w lv key)]
    rfl

/-- The key comes from the request. -/
theorem hs_key (V : Http.Lib) (lv : Nat) (fs : List (Bytes × Bytes)) : ∀ (st st' : Ws.HsState), Ws.hs_headers V false lv fs st = some st' →
    st'.key = st.key ∨ ∃ n, (n, st'.key) ∈ fs ∧ SameButCase n (b! "Sec-WebSocket-Key") ∧ st'.key.length = 24 := by
  induction fs with
  | nil => intro st st' h; cases h; exact .inl rfl
  | cons x t ih =>
    intro st st' h
    have step : ∀ st2 : Ws.HsState, Ws.hs_headers V false lv t st2 = some st' → (st2.key = st.key ∨ st2.key = x.2 ∧ SameButCase x.1 (b! "Sec-WebSocket-Key") ∧ x.2.length = 24) →
        st'.key = st.key ∨ ∃ n, (n, st'.key) ∈ x :: t ∧ SameButCase n (b! "Sec-WebSocket-Key") ∧ st'.key.length = 24 := by
      intro st2 h2 hk
      rcases ih st2 st' h2 with h3 | ⟨n, h3, h4, h5⟩
      · rcases hk with hk | ⟨hk, h6, h7⟩
        · exact .inl (h3.trans hk)
        · refine .inr ⟨x.1, ?_, h6, ?_⟩
          · rw [h3, hk]; simp
          · rw [h3, hk]; exact h7
      · exact .inr ⟨n, List.mem_cons_of_mem _ h3, h4, h5⟩
    unfold Ws.hs_headers at h
    split at h
    · split at h
      · cases h
      · exact step _ h (.inl rfl)
    split at h
    · exact step _ h (.inl (by split <;> rfl))
    split at h
    · exact step _ h (.inl (by split <;> rfl))
    split at h
    · rename_i hn
      refine step _ h ?_
      split
      · rename_i hl
        exact .inr ⟨rfl, (HttpRequest.name_eq_iff _ _).mp (by simpa using hn), hl⟩
      · exact .inl rfl
    split at h
    · rename_i hn; simp at hn
    split at h
    · split at h
      · cases h
      · exact step _ h (.inl rfl)
    · exact step _ h (.inl rfl)

end Verif.WsExchange
