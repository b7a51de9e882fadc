import Verif.Proofs.EasyConnect
import Verif.Props.HttpRequest
import Verif.Props.DnsConnect
/-!
# C110: easy clients connect to the host of the address, tell the server so, and accept nobody else
-/
namespace Verif.Props
open Verif Verif.Spec Verif.Uri Verif.EasyConnect

/-! ## The host and the port -/

theorem connect_text (k : Kind) (p : RefParts) (hv : p.Valid) : EasyConnect.connect k p.text =
    match meantPort k p with
    | none => .error .noPort
    | some port =>
      match k with
      | .tcp | .ssl => if p.path.isSome then .error .hasPath else if p.query.isSome then .error .hasQuery else if p.fragment.isSome then .error .hasFragment else .ok { host := p.host, port := port }
      | .http | .https => if p.path.isSome then .error .hasPath else if p.query.isSome then .error .hasQuery else .ok { host := p.host, port := port, default_host := host_text p.host port }
      | .ws | .wss => .ok { host := p.host, port := port, default_host := host_text p.host port, path := p.path.getD [], query := p.query.getD [] } := by
  have hport : (if (store {} p).port.length = 0 then implied_port k else some (store {} p).port_num) = meantPort k p := by
    unfold meantPort
    cases h : p.port with
    | none => simp [store, h]; cases k <;> rfl
    | some tn =>
      obtain ⟨t, n⟩ := tn
      have := (hv.port_num t n h).1
      simp [store, h, this]
  unfold EasyConnect.connect
  rw [present_text p hv, parse_text p hv]
  simp only [ne_eq, not_true_eq_false, if_false, hport]
  cases meantPort k p with
  | none => rfl
  | some port => cases k <;> simp [store]

/-- C110.  A client that is given an address as documented tries to connect to exactly the host and the port in it, or to the documented port if there is none in it; a WebSocket client asks for exactly
the path and the query in it. -/
theorem C110_connect (k : Kind) (p : RefParts) (hv : p.Valid) (ha : AllowedAddress k p) :
    ∃ plan port, meantPort k p = some port ∧ EasyConnect.connect k p.text = .ok plan ∧ plan.host = p.host ∧ plan.port = port ∧
      (k = .ws ∨ k = .wss → plan.path = p.path.getD [] ∧ plan.query = p.query.getD []) := by
  obtain ⟨port, hp⟩ := Option.ne_none_iff_exists'.mp ha.port
  rw [connect_text k p hv, hp]
  have h1 := ha.path
  have h2 := ha.query
  have h3 := ha.fragment
  cases k <;> simp_all

example : AllowedAddress .wss ⟨false, b! "example.com", none, some (b! "/a"), some (b! "b"), none⟩ := ⟨by simp [meantPort, documentedPort], by simp, by simp, rfl⟩
example : EasyConnect.connect .wss (b! "example.com/a?b") = .ok { host := b! "example.com", port := 443, default_host := b! "example.com:443", path := b! "/a", query := b! "b" } := by decide +kernel
example : EasyConnect.connect .https (b! "example.com:8443") = .ok { host := b! "example.com", port := 8443, default_host := b! "example.com:8443" } := by decide +kernel

/-- C110.  … and nothing else is accepted: if `connect()` does not throw an exception, the address is a host, a port and so on, and all of them are used.  PARTIAL: an empty address and fragments are
accepted by clients for HTTP and WebSocket, although the documentation says that they are not (see `C110_violated_empty` and `C110_violated_fragment`). -/
theorem C110_refuses_partial (k : Kind) (addr : Bytes) (hne : addr ≠ []) (plan : Plan) (h : EasyConnect.connect k addr = .ok plan) :
    ∃ p : RefParts, p.Valid ∧ p.text = addr ∧ (p.fragment = none → AllowedAddress k p) ∧ plan.host = p.host ∧ some plan.port = meantPort k p ∧
      (k = .tcp ∨ k = .ssl → p.fragment = none) ∧ (k = .ws ∨ k = .wss → plan.path = p.path.getD [] ∧ plan.query = p.query.getD []) := by
  have hlen : (parse_network_reference {} addr).2 = addr.length := by
    unfold EasyConnect.connect at h
    simp only at h
    split at h
    · cases h
    · rename_i hc; simpa using hc
  have h0 : (parse_network_reference {} addr).2 ≠ 0 := by
    rw [hlen]
    intro hc
    exact hne (List.length_eq_zero_iff.mp hc)
  obtain ⟨p, hv, ht, _, _⟩ := parse_sound {} addr h0
  rw [hlen, List.take_length] at ht
  subst ht
  rw [connect_text k p hv] at h
  refine ⟨p, hv, rfl, ?_⟩
  cases hp : meantPort k p with
  | none => rw [hp] at h; cases h
  | some port =>
    rw [hp] at h
    have hport : meantPort k p ≠ none := by simp [hp]
    have hnone : ∀ {o : Option Bytes}, ¬ o.isSome = true → o = none := by intro o ho; simpa using ho
    cases k <;> simp only at h
    case tcp | ssl =>
      split at h
      · cases h
      rename_i h1
      split at h
      · cases h
      rename_i h2
      split at h
      · cases h
      rename_i h3
      cases h
      exact ⟨fun _ => ⟨hport, Or.inr (Or.inr (hnone h1)), Or.inr (Or.inr (hnone h2)), hnone h3⟩, rfl, rfl, fun _ => hnone h3, by simp⟩
    case http | https =>
      split at h
      · cases h
      rename_i h1
      split at h
      · cases h
      rename_i h2
      cases h
      exact ⟨fun hf => ⟨hport, Or.inr (Or.inr (hnone h1)), Or.inr (Or.inr (hnone h2)), hf⟩, rfl, rfl, by simp, by simp⟩
    case ws | wss =>
      cases h
      exact ⟨fun hf => ⟨hport, by simp, by simp, hf⟩, rfl, rfl, by simp, by simp⟩

/-- C110, violation: an empty address is accepted, and is to be resolved. -/
theorem C110_violated_empty : EasyConnect.connect .https [] = .ok { host := [], port := 443, default_host := b! ":443" } ∧ ¬ ∃ p : RefParts, p.Valid ∧ p.text = [] := by
  refine ⟨by decide +kernel, ?_⟩
  rintro ⟨p, hv, ht⟩
  have := hv.host_nonempty
  simp only [RefParts.text, List.append_eq_nil_iff] at ht
  have := ht.1.1.1.1
  split at this
  · simp at this
  · contradiction

/-- C110, violation: a fragment is accepted and ignored by clients for HTTP and WebSocket. -/
theorem C110_violated_fragment : EasyConnect.connect .http (b! "h#f") = EasyConnect.connect .http (b! "h") ∧ EasyConnect.connect .wss (b! "h/a#f") = EasyConnect.connect .wss (b! "h/a") ∧
    (EasyConnect.connect .wss (b! "h/a#f")).isOk = true := by decide +kernel

/-- C110, with C100.  All attempts to connect go to addresses that the resolver has given for the host in the address, with the port in the address. -/
theorem C110_attempts (k : Kind) (p : RefParts) (hv : p.Valid) (plan : Plan) (h : EasyConnect.connect k p.text = .ok plan) (env : DnsConnect.Env) :
    ∀ a q, (a, q) ∈ (DnsConnect.execute env plan.host plan.port).attempts →
      some q = meantPort k p ∧ ∃ addrs, env.resolve p.host = some addrs ∧ a ∈ DnsConnect.targets addrs := by
  intro a q hm
  have hne : p.text ≠ [] := by
    intro ht
    exact C110_violated_empty.2 ⟨p, hv, ht⟩
  have hh : plan.host = p.host ∧ some plan.port = meantPort k p := by
    rw [connect_text k p hv] at h
    cases hp : meantPort k p with
    | none => rw [hp] at h; cases h
    | some port =>
      rw [hp] at h
      cases k <;> simp only at h <;> (repeat' split at h) <;> cases h <;> exact ⟨rfl, rfl⟩
  rw [hh.1] at hm
  cases hr : env.resolve p.host with
  | none => unfold DnsConnect.execute at hm; rw [hr] at hm; simp at hm
  | some addrs =>
    cases ha : env.alive with
    | false => rw [C100_gone _ _ _ ha] at hm; simp at hm
    | true =>
      have := (C100_order env p.host plan.port addrs hr ha).1.subset hm
      simp only [List.mem_map, Prod.mk.injEq] at this
      obtain ⟨b, hb, rfl, rfl⟩ := this
      exact ⟨hh.2, addrs, rfl, hb⟩

example : (DnsConnect.execute DnsConnect.demo (b! "h") 80).attempts.length = 2 ∧ EasyConnect.connect .http (b! "h") = .ok { host := b! "h", port := 80, default_host := b! "h:80" } := by decide +kernel

/-! ## What the server is told -/

/-- C110.  A request of an HTTP or HTTPS client that does not say a host has `host:port` of the address in its `Host` header.  PARTIAL: not if the host is an IPv6 address in brackets, see
`C110_violated_ipv6`; then the brackets are lost. -/
theorem C110_host_partial (k : Kind) (hk : k ≠ .tcp ∧ k ≠ .ssl) (p : RefParts) (hv : p.Valid) (hb : p.bracketed = false) (plan : Plan) (h : EasyConnect.connect k p.text = .ok plan)
    (req : HttpRequest.Headers) (remote data : Bytes) (hp : req.is_proxy = false) (hr : req.raw_host = []) (hn : ∀ hr ∈ req.headers, ¬ SameButCase hr.1 (b! "Host"))
    (hpath : ∀ c ∈ req.raw_path, c ∈ pathChars) (hquery : ∀ c ∈ req.raw_query, c ∈ queryChars) (hl : OneLine req.method ∧ ∀ hr ∈ req.headers, hr.1 ≠ [] ∧ OneLine hr.1 ∧ OneLine (hr.2.getD [])) :
    ∃ line hs port host, readHead (HttpRequest.http_request req remote plan.default_host data) [] = some (line :: hs.map (fun hr => hr.1 ++ b! ": " ++ hr.2.getD []), data) ∧
      OneHost hs host ∧ meantPort k p = some port ∧ HostText p.host port host := by
  obtain ⟨port, hport, hd⟩ : ∃ port, meantPort k p = some port ∧ plan.default_host = host_text p.host port := by
    rw [connect_text k p hv] at h
    cases hp : meantPort k p with
    | none => rw [hp] at h; cases h
    | some port =>
      rw [hp] at h
      refine ⟨port, rfl, ?_⟩
      cases k <;> simp only at h
      · exact absurd rfl hk.1
      · exact absurd rfl hk.2
      all_goals (repeat' split at h)
      all_goals cases h
      all_goals rfl
  have hhost : ∀ c ∈ p.host, c ∈ hostChars := by simpa [hb] using hv.host_chars
  have hline : OneLine plan.default_host := hd ▸ host_text_oneLine p.host port hhost
  have hdne : plan.default_host ≠ [] := by rw [hd, host_text]; simp
  obtain ⟨target, hs, r1, r2, _⟩ := C74_request_partial req remote plan.default_host data plan.default_host hp (by simp [hr, hdne]) (Or.inl hn) hpath hquery ⟨hl.1, hline, hl.2⟩
  exact ⟨_, hs, port, plan.default_host, r1, r2, hport, hd ▸ host_text_spec _ _⟩

example : HttpRequest.http_request { raw_path := b! "/x" } (b! "1.2.3.4:80") (b! "example.com:8443") [] = b! "GET /x HTTP/1.1\r\nHost: example.com:8443\r\n\r\n" := by decide +kernel

/-- C110.  The request that a WebSocket client sends is one whole head, which asks for the path and the query of the address, at `host:port` of the address, with the headers of the handshake (see C61).
PARTIAL: not for IPv6 addresses, as above; and by C73, the server reads it like that only if `://` is not in it. -/
theorem C110_websocket_partial (k : Kind) (hk : k = .ws ∨ k = .wss) (p : RefParts) (hv : p.Valid) (hb : p.bracketed = false) (plan : Plan) (h : EasyConnect.connect k p.text = .ok plan)
    (remote key : Bytes) (hkey : OneLine key) :
    ∃ target hs port host, readHead (ws_request plan remote key) [] = some ((b! "GET " ++ target ++ b! " HTTP/1.1") :: hs.map (fun hr => hr.1 ++ b! ": " ++ hr.2.getD []), []) ∧
      OneHost hs host ∧ meantPort k p = some port ∧ HostText p.host port host ∧
      hs.filter (fun hr => !Http.name_eq hr.1 (b! "Host")) = (Ws.handshake_request key).map (fun x => (x.1, some x.2)) ∧
      (¬ Occurs (b! "://") target → ∀ m, HttpRequest.parse_target { method := m, headers := hs } target
        = .ok { method := m, headers := hs, raw_host := host, raw_path := p.path.getD (b! "/"), raw_query := p.query.getD [] }) := by
  obtain ⟨port, hport, hd, hp1, hq1⟩ : ∃ port, meantPort k p = some port ∧ plan.default_host = host_text p.host port ∧ plan.path = p.path.getD [] ∧ plan.query = p.query.getD [] := by
    rw [connect_text k p hv] at h
    cases hp : meantPort k p with
    | none => rw [hp] at h; cases h
    | some port =>
      rw [hp] at h
      refine ⟨port, rfl, ?_⟩
      rcases hk with rfl | rfl <;> simp only at h <;> cases h <;> exact ⟨rfl, rfl, rfl⟩
  have hhost : ∀ c ∈ p.host, c ∈ hostChars := by simpa [hb] using hv.host_chars
  have hline : OneLine plan.default_host := hd ▸ host_text_oneLine p.host port hhost
  have hdne : plan.default_host ≠ [] := by rw [hd, host_text]; simp
  let req : HttpRequest.Headers := { method := b! "GET", raw_path := plan.path, raw_query := plan.query, headers := (Ws.handshake_request key).map (fun x => (x.1, some x.2)) }
  have hreq : ws_request plan remote key = HttpRequest.http_request req remote plan.default_host [] := by
    unfold ws_request HttpRequest.http_request
    simp [req]
  have hnh : ∀ hr ∈ req.headers, ¬ SameButCase hr.1 (b! "Host") ∧ Http.name_eq hr.1 (b! "Host") = false ∧ hr.1 ≠ [] ∧ OneLine hr.1 := by
    intro hr hm
    have hm' : hr.1 ∈ (Ws.handshake_request key).map Prod.fst := by
      simp only [req, List.mem_map] at hm
      obtain ⟨x, hx, rfl⟩ := hm
      exact List.mem_map_of_mem hx
    have e : (Ws.handshake_request key).map Prod.fst = [b! "Connection", b! "Upgrade", b! "Sec-WebSocket-Version", b! "Sec-WebSocket-Key", b! "Sec-WebSocket-Extensions"] := rfl
    rw [e] at hm'
    have hno : Http.name_eq hr.1 (b! "Host") = false ∧ hr.1 ≠ [] ∧ OneLine hr.1 := by
      unfold OneLine
      simp only [List.mem_cons, List.not_mem_nil, or_false] at hm'
      rcases hm' with h | h | h | h | h <;> rw [h] <;> decide +kernel
    exact ⟨fun hc => by have := (HttpRequest.name_eq_iff _ _).mpr hc; rw [hno.1] at this; exact absurd this (by simp), hno⟩
  have hvals : ∀ hr ∈ req.headers, OneLine (hr.2.getD []) := by
    intro hr hm
    simp only [req, List.mem_map] at hm
    obtain ⟨x, hx, rfl⟩ := hm
    simp only [Ws.handshake_request, List.mem_cons, List.not_mem_nil, or_false] at hx
    rcases hx with rfl | rfl | rfl | rfl | rfl
    case inr.inr.inr.inl => exact hkey
    all_goals (unfold OneLine; decide +kernel)
  have hpath : ∀ c ∈ plan.path, c ∈ pathChars := by
    rw [hp1]
    cases hp : p.path with
    | none => simp
    | some t => exact (hv.path_chars t hp).2
  have hquery : ∀ c ∈ plan.query, c ∈ queryChars := by
    rw [hq1]
    cases hp : p.query with
    | none => simp
    | some t => exact hv.query_chars t hp
  obtain ⟨target, hs, r1, r2, ⟨ls, r3, r4, _⟩, r5⟩ := C74_request_partial req remote plan.default_host [] plan.default_host rfl (by simp [req, hdne]) (Or.inl fun hr hm => (hnh hr hm).1) hpath hquery
    ⟨show OneLine (b! "GET") by unfold OneLine; decide, hline, fun hr hm => ⟨(hnh hr hm).2.2.1, (hnh hr hm).2.2.2, hvals hr hm⟩⟩
  refine ⟨target, hs, port, plan.default_host, ?_, r2, hport, hd ▸ host_text_spec _ _, ?_, ?_⟩
  · rw [hreq, r1]
    rfl
  · rw [r3, r4 rfl, List.append_nil]
    exact List.filter_eq_self.mpr fun hr hm => by simp [(hnh hr hm).2.1]
  · intro hno m
    rw [r5 hno m]
    have e : (if req.raw_path.head? = some (chr '/') then req.raw_path else b! "/" ++ req.raw_path) = p.path.getD (b! "/") := by
      show (if plan.path.head? = some (chr '/') then plan.path else b! "/" ++ plan.path) = _
      rw [hp1]
      cases hp : p.path with
      | none => simp
      | some t =>
        obtain ⟨⟨t', rfl⟩, _⟩ := hv.path_chars t hp
        simp
        rfl
    rw [e]
    show _ = Except.ok _
    congr 2

example : ws_request { host := b! "a.com", port := 80, default_host := b! "a.com:80", path := b! "/p", query := b! "q" } [] (b! "dGhlIHNhbXBsZSBub25jZQ==")
    = b! "GET /p?q HTTP/1.1\r\nConnection: Upgrade\r\nUpgrade: websocket\r\nSec-WebSocket-Version: 13\r\nSec-WebSocket-Key: dGhlIHNhbXBsZSBub25jZQ==\r\nSec-WebSocket-Extensions: permessage-deflate; client_max_window_bits\r\nHost: a.com:80\r\n\r\n" := by decide +kernel

/-! ## Whom a client accepts -/

/-- C110.  If the authorities to trust are configured, then a client for HTTPS or WSS completes the handshake only with a server whose certificate is issued by one of them, for the host of the
address.  PARTIAL: only for hosts that are not IPv6 addresses in brackets and have no more than 253 characters; and not for SSL clients.  See the violations below. -/
theorem C110_certificate_partial (k : Kind) (hk : k = .https ∨ k = .wss) (p : RefParts) (hv : p.Valid) (hb : p.bracketed = false) (hlen : p.host.length ≤ 253) (plan : Plan)
    (h : EasyConnect.connect k p.text = .ok plan) (ca : Bytes) (hca : ca ≠ []) (cert : Cert) : accepts k ca plan cert = true ↔ cert.trusted = true ∧ cert.issued p.host = true := by
  have hhost : ∀ c ∈ p.host, c ∈ hostChars := by simpa [hb] using hv.host_chars
  obtain ⟨port, hport, hd⟩ : ∃ port, meantPort k p = some port ∧ plan.default_host = host_text p.host port := by
    rw [connect_text k p hv] at h
    cases hp : meantPort k p with
    | none => rw [hp] at h; cases h
    | some port =>
      rw [hp] at h
      refine ⟨port, rfl, ?_⟩
      rcases hk with rfl | rfl <;> simp only at h <;> (repeat' split at h) <;> cases h <;> rfl
  have hle : port ≤ 65535 := by
    unfold meantPort at hport
    cases hp : p.port with
    | none => rw [hp] at hport; rcases hk with rfl | rfl <;> simp [documentedPort] at hport <;> omega
    | some tn => rw [hp] at hport; obtain ⟨t, n⟩ := tn; simp at hport; subst hport; exact (hv.port_num t _ hp).2.2
  have hname : expected_name k plan = some p.host := by
    have : session_name plan.default_host = some p.host := by
      rw [hd, session_name_host p.host port hv.host_nonempty hhost hle, if_pos hlen]
    rcases hk with rfl | rfl <;> exact this
  unfold accepts handshake verify_peer
  rw [hname]
  simp [hca]

example : accepts .https (b! "/etc/ssl/certs") { host := b! "a.com", port := 443, default_host := b! "a.com:443" } ⟨true, fun n => n == b! "b.com"⟩ = false ∧
    accepts .https (b! "/etc/ssl/certs") { host := b! "a.com", port := 443, default_host := b! "a.com:443" } ⟨true, fun n => n == b! "a.com"⟩ = true := by decide +kernel

/-- C110, violation: the default host of an IPv6 address has no brackets, so it is never understood as this address; the name that is expected in the certificate is never the host. -/
theorem C110_violated_ipv6 (k : Kind) (hk : k = .https ∨ k = .wss) (p : RefParts) (hv : p.Valid) (hb : p.bracketed = true) (hcolon : chr ':' ∈ p.host) (plan : Plan)
    (h : EasyConnect.connect k p.text = .ok plan) : expected_name k plan ≠ some p.host := by
  obtain ⟨port, hd⟩ : ∃ port, plan.default_host = host_text p.host port := by
    rw [connect_text k p hv] at h
    cases hp : meantPort k p with
    | none => rw [hp] at h; cases h
    | some port =>
      rw [hp] at h
      refine ⟨port, ?_⟩
      rcases hk with rfl | rfl <;> simp only at h <;> (repeat' split at h) <;> cases h <;> rfl
  have hn : expected_name k plan = session_name plan.default_host := by rcases hk with rfl | rfl <;> rfl
  rw [hn, hd]
  intro hs
  have hhead : (host_text p.host port).head? ≠ some (chr '[') := by
    have hc := hv.host_chars
    rw [hb] at hc
    unfold host_text
    match hh : p.host, hv.host_nonempty with
    | a :: t, _ =>
      rw [hh] at hc
      have ha := hc a (by simp)
      simp only [if_true] at ha
      intro he
      simp only [List.cons_append, List.head?_cons, Option.some.injEq] at he
      rw [he] at ha
      revert ha; decide
  have := session_name_sub _ _ hhead hs (chr ':') hcolon
  revert this; decide

/-- C110, violation: … and it may be that no name is expected at all, so everyone who has a certificate for whatever host is accepted. -/
theorem C110_violated_ipv6_anyone (cert : Cert) (ca : Bytes) (h : cert.trusted = true) :
    EasyConnect.connect .https (b! "[2001:db8::1]:8443") = .ok { host := b! "2001:db8::1", port := 8443, default_host := b! "2001:db8::1:8443" } ∧
    accepts .https ca { host := b! "2001:db8::1", port := 8443, default_host := b! "2001:db8::1:8443" } cert = true := by
  refine ⟨by decide +kernel, ?_⟩
  have : expected_name .https { host := b! "2001:db8::1", port := 8443, default_host := b! "2001:db8::1:8443" } = none := by decide +kernel
  unfold accepts handshake
  rw [this, h]
  simp

/-- C110, violation: SSL clients expect no name, so everyone who has a certificate for whatever host is accepted. -/
theorem C110_violated_ssl (plan : Plan) (cert : Cert) (ca : Bytes) (h : cert.trusted = true) : accepts .ssl ca plan cert = true := by
  unfold accepts handshake expected_name
  simp [h]

/-- C110, violation: so do clients for HTTPS and WSS if the host is longer than 253 characters. -/
theorem C110_violated_long (p : RefParts) (hv : p.Valid) (hb : p.bracketed = false) (hlen : 253 < p.host.length) (plan : Plan)
    (h : EasyConnect.connect .https p.text = .ok plan) (ca : Bytes) (cert : Cert) (ht : cert.trusted = true) : accepts .https ca plan cert = true := by
  have hhost : ∀ c ∈ p.host, c ∈ hostChars := by simpa [hb] using hv.host_chars
  obtain ⟨port, hport, hd⟩ : ∃ port, meantPort .https p = some port ∧ plan.default_host = host_text p.host port := by
    rw [connect_text _ p hv] at h
    cases hp : meantPort .https p with
    | none => rw [hp] at h; cases h
    | some port =>
      rw [hp] at h
      refine ⟨port, rfl, ?_⟩
      simp only at h
      (repeat' split at h) <;> cases h <;> rfl
  have hle : port ≤ 65535 := by
    unfold meantPort at hport
    cases hp : p.port with
    | none => rw [hp] at hport; simp [documentedPort] at hport; omega
    | some tn => rw [hp] at hport; obtain ⟨t, n⟩ := tn; simp at hport; subst hport; exact (hv.port_num t _ hp).2.2
  have hname : expected_name .https plan = none := by
    show session_name plan.default_host = none
    rw [hd, session_name_host p.host port hv.host_nonempty hhost hle, if_neg (by omega)]
  unfold accepts handshake
  rw [hname]
  simp [ht]

example : EasyConnect.connect .https (List.replicate 254 (chr 'a')) = .ok { host := List.replicate 254 (chr 'a'), port := 443, default_host := List.replicate 254 (chr 'a') ++ b! ":443" } ∧
    RefParts.Valid ⟨false, List.replicate 254 (chr 'a'), none, none, none, none⟩ := by
  refine ⟨by decide +kernel, ⟨by decide +kernel, ?_, ?_, ?_, ?_, ?_⟩⟩
  · have e : (chr 'a') ∈ (if false = true then host6Chars else hostChars) := by decide +kernel
    intro c hc
    rw [List.eq_of_mem_replicate hc]
    exact e
  all_goals (intro t; intros; contradiction)

end Verif.Props
