import Verif.Proofs.HttpTarget
/-! # Requests: how they are put together (C72), their targets (C73), and how they are sent (C74) -/
namespace Verif.Props
open Verif.HttpLib Verif.Spec Verif.HttpRequest

/-! ## C72 -/

/-- C72.  The library hands over the URL, the names and the values in pieces of any number and size (at least one for each name
and value, maybe an empty one).  Whatever the pieces are, the parser ends up with the whole URL, and with exactly these headers in
their order; unless the head is larger than the limit, when there is an exception. -/
theorem C72_assemble (c : Cfg) (url : List Bytes) (hs : List (List Bytes × List Bytes)) (hh : ∀ h ∈ hs, h.1 ≠ [] ∧ h.2 ≠ []) :
    onDatas c {} (headCalls url hs) = if headSize url hs > c.max_header_length then .error .exception
      else .ok { headers := { raw_host := url.flatten, headers := hs.map (fun h => (h.1.flatten, some h.2.flatten)) } } := head_all c url hs hh

example : onDatas { max_header_length := 20, max_content_length := 0 } {} (headCalls [b! "/a", b! "b"] [([b! "Ho", b! "st"], [b! "x"]), ([b! "A"], [[]])])
    = .ok { headers := { raw_host := b! "/ab", headers := [(b! "Host", some (b! "x")), (b! "A", some [])] } } := by decide +kernel

/-- C72.  Once the headers are complete, `parse_headers_from_stream()` takes nothing more; once the payload is complete, neither does `parse_payload_from_stream()`: what comes behind the request is
left for the next one.  The payload cannot be asked for before the headers. -/
theorem C72_complete (c : Cfg) (L : Lib) (p q : Parser) (st st' : L.σ) (data rest : Bytes) (eof : Bool) :
    (p.hreq = 0 → parse_payload c L p st data eof = .error .exception) ∧
    (parse_headers c L p st data eof = .ok (q, st', rest) → q.hreq = 1 ∨ q.hreq = 2 → ∀ more e, parse_headers c L q st' more e = .ok (q, st', more)) ∧
    (parse_payload c L p st data eof = .ok (q, st', rest) → q.hreq = 2 → ∀ more e, parse_payload c L q st' more e = .ok (q, st', more)) := by
  refine ⟨fun h => ?_, fun _ h more e => ?_, fun _ h more e => ?_⟩
  · unfold parse_payload; rw [if_neg (by omega), if_pos (by omega)]
  · unfold parse_headers; rw [if_pos (by omega)]
  · unfold parse_payload; rw [if_pos (by omega)]

/-- C72.  In any state, and for payloads too, it makes no difference where the library cuts the text into pieces: the result
is the same, and if there is a failure for one way of cutting then there is one for every other. -/
theorem C72_regroup (c : Cfg) (p : Parser) {a b : List Data} (h : Regroup a b) : (onDatas c p a).toOption = (onDatas c p b).toOption := regroup c p h

example : Regroup [.body (b! "ab"), .body (b! "c")] [.body (b! "a"), .body (b! "bc")] :=
  .trans (.body [] (b! "ab") (b! "c") []) (.symm (.body [] (b! "a") (b! "bc") []))

/-- C72.  The payload is the concatenation of its pieces, up to the limit; for methods other than POST, PUT and PATCH it is
discarded. -/
theorem C72_payload (c : Cfg) (p : Parser) (pieces : List Bytes) (hp : p.payload.length ≤ c.max_content_length) :
    onDatas c p (pieces.map .body) =
      if p.headers.method = b! "POST" ∨ p.headers.method = b! "PUT" ∨ p.headers.method = b! "PATCH" then
        if p.payload.length + pieces.flatten.length > c.max_content_length then .error .exception else .ok { p with payload := p.payload ++ pieces.flatten }
      else .ok p := payload_all c p pieces hp

example : onDatas { max_header_length := 0, max_content_length := 4 } { headers := { method := b! "PUT" } } [.body (b! "ab"), .body (b! "cd")]
    = .ok { headers := { method := b! "PUT" }, payload := b! "abcd" } := by decide +kernel

/-! ## C73 -/

/-- C73.  A request for a path is accepted if it has exactly one `Host` header, and path, query and host are taken over as they
are.  PARTIAL: only if `://` does not occur in the text (see `C73_url_in_query`). -/
theorem C73_origin_partial (m : Bytes) (hs : List (Bytes × Option Bytes)) (o : OriginForm) (hv : o.Valid) (host : Bytes) (hh : OneHost hs host)
    (hn : ¬ Occurs (b! "://") o.text) :
    parse_target { method := m, headers := hs } o.text
      = .ok { method := m, headers := hs, raw_host := host, raw_path := o.path, raw_query := o.query.getD [] } := target_origin m hs o hv host hh hn

/-- C73.  A request for an absolute URI is accepted, and its parts are taken over as they are, with the default port for the
scheme, and `/` for an empty path.  PARTIAL: a URI with no userinfo and no path must not have `@` in its query (see
`C73_at_in_query`). -/
theorem C73_absolute_partial (m : Bytes) (hs : List (Bytes × Option Bytes)) (a : AbsoluteForm) (hv : a.Valid) (s : Bytes) (hs' : a.Text s)
    (hat : a.userinfo ≠ none ∨ a.ref.path ≠ none ∨ chr '@' ∉ a.ref.text) :
    parse_target { method := m, headers := hs } s = .ok
      { method := m, headers := hs, is_proxy := true, is_ssl := a.https
        port := (a.ref.port.map Prod.snd).getD (if a.https then 443 else 80)
        raw_host := a.ref.host
        raw_userinfo := a.userinfo.getD []
        raw_path := a.ref.path.getD (b! "/")
        raw_query := a.ref.query.getD [] } := target_absolute m hs a hv s hs' hat

/-- C73.  Nothing else is accepted with a host: the target is a valid path with exactly one `Host` header, or a valid URI, and
the fields are its parts.  PARTIAL: the userinfo of a URI may have any characters but `@` and `/`. -/
theorem C73_sound_partial (m : Bytes) (hs : List (Bytes × Option Bytes)) (uri : Bytes) (h : Headers)
    (hp : parse_target { method := m, headers := hs } uri = .ok h) (hh : h.raw_host ≠ []) :
    (∃ o : OriginForm, o.Valid ∧ uri = o.text ∧ OneHost hs h.raw_host ∧
      h = { method := m, headers := hs, raw_host := h.raw_host, raw_path := o.path, raw_query := o.query.getD [] }) ∨
    (∃ a : AbsoluteForm, a.ref.Valid ∧ (∀ u, a.userinfo = some u → ∀ c ∈ u, c ≠ chr '@' ∧ c ≠ chr '/') ∧ a.Text uri ∧
      h = { method := m, headers := hs, is_proxy := true, is_ssl := a.https
            port := (a.ref.port.map Prod.snd).getD (if a.https then 443 else 80)
            raw_host := a.ref.host
            raw_userinfo := a.userinfo.getD []
            raw_path := a.ref.path.getD (b! "/")
            raw_query := a.ref.query.getD [] }) := target_sound m hs uri h hp hh

/-- C73 is violated: a valid path whose query has a URL in it is rejected. -/
theorem C73_url_in_query : (OriginForm.mk (b! "/login") (some (b! "next=http://b/")) none).Valid ∧ OneHost [(b! "Host", some (b! "a"))] (b! "a") ∧
    parse_target { headers := [(b! "Host", some (b! "a"))] } (OriginForm.mk (b! "/login") (some (b! "next=http://b/")) none).text = .error .invalidUrl := by
  refine ⟨⟨⟨b! "login", rfl⟩, by decide, ?_, by simp⟩, ⟨[], [], b! "Host", some (b! "a"), rfl, rfl, ?_, by simp⟩, by decide +kernel⟩
  · intro t ht
    simp only [Option.some.injEq] at ht
    subst ht
    decide
  · rw [Http.sameButCase_iff]

/-- C73 is violated: the host `good` of a valid URI is taken for userinfo, and a part of the query for the host. -/
theorem C73_at_in_query : ∃ a : AbsoluteForm, a.Valid ∧ a.ref.host = b! "good" ∧ a.Text (b! "http://good?x=y@bad") ∧
    parse_target {} (b! "http://good?x=y@bad")
      = .ok { is_proxy := true, port := 80, raw_userinfo := b! "good?x=y", raw_host := b! "bad", raw_path := b! "/" } := by
  refine ⟨⟨false, none, ⟨false, b! "good", none, none, some (b! "x=y@bad"), none⟩⟩, ⟨by simp, ⟨by simp, ?_, by simp, by simp, ?_, by simp⟩⟩, rfl, ⟨b! "http://", ?_, rfl⟩, by decide +kernel⟩
  · show ∀ c ∈ b! "good", c ∈ hostChars
    decide
  · intro t ht
    simp only [Option.some.injEq] at ht
    subst ht
    decide
  · rw [Http.sameButCase_iff]; rfl

example : parse_target { method := b! "GET", headers := [(b! "A", none), (b! "hOST", some (b! "h:1"))] } (b! "/a/b?c=d#e")
    = .ok { method := b! "GET", headers := [(b! "A", none), (b! "hOST", some (b! "h:1"))], raw_host := b! "h:1", raw_path := b! "/a/b", raw_query := b! "c=d" } := by decide +kernel
example : parse_target {} (b! "HTTPS://u:p@h:8080") = .ok { is_proxy := true, is_ssl := true, port := 8080, raw_userinfo := b! "u:p", raw_host := b! "h", raw_path := b! "/" } := by
  decide +kernel
example : parse_target { headers := [(b! "Host", some (b! "a")), (b! "Host", some (b! "b"))] } (b! "/") = .error .invalidUrl := by decide +kernel

/-! ## C74 -/

/-- C74.  A request for a path that is sent by a client arrives as one head, whose first line has the method and the target, and
whose other lines are the headers of the request in their order, with exactly one `Host` header among them, and the length of the
payload if there is one; behind it come exactly the bytes of the payload.  The server reads the path, the query and the host of the
request from it.  PARTIAL: for C73 the text must not have `://` in it. -/
theorem C74_request_partial (h : Headers) (remote default_host data host : Bytes) (hp : h.is_proxy = false)
    (hhost : host = if h.raw_host ≠ [] then h.raw_host else if default_host ≠ [] then default_host else remote)
    (hone : (∀ hr ∈ h.headers, ¬ SameButCase hr.1 (b! "Host")) ∨ ∃ v, OneHost h.headers v)
    (hpath : ∀ c ∈ h.raw_path, c ∈ pathChars) (hquery : ∀ c ∈ h.raw_query, c ∈ queryChars)
    (hl : OneLine h.method ∧ OneLine host ∧ ∀ hr ∈ h.headers, hr.1 ≠ [] ∧ OneLine hr.1 ∧ OneLine (hr.2.getD [])) :
    ∃ (target : Bytes) (hs : List (Bytes × Option Bytes)),
      readHead (http_request h remote default_host data) []
        = some (((if h.method = [] then b! "GET" else h.method) ++ b! " " ++ target ++ b! " HTTP/1.1") :: hs.map (fun hr => hr.1 ++ b! ": " ++ hr.2.getD []), data) ∧
      OneHost hs host ∧
      (∃ ls, hs.filter (fun hr => !Http.name_eq hr.1 (b! "Host")) = h.headers.filter (fun hr => !Http.name_eq hr.1 (b! "Host")) ++ ls ∧
        (data = [] → ls = []) ∧ (data ≠ [] → ∃ d, DecNum d data.length ∧ ls = [(b! "Content-Length", some d)])) ∧
      (¬ Occurs (b! "://") target → ∀ m, parse_target { method := m, headers := hs } target
        = .ok { method := m, headers := hs, raw_host := host, raw_path := if h.raw_path.head? = some (chr '/') then h.raw_path else b! "/" ++ h.raw_path, raw_query := h.raw_query }) := by
  have lit : OneLine (b! "GET") ∧ OneLine (b! "Host") ∧ OneLine (b! "Content-Length") := by unfold OneLine; decide
  obtain ⟨s1, s2, s3⟩ := setHost_spec host h.headers hone
  -- the headers that are sent
  let cl : List (Bytes × Option Bytes) := if data ≠ [] then [(b! "Content-Length", some (Http.decimal data.length))] else []
  have hcl : ∀ hr ∈ cl, hr = (b! "Content-Length", some (Http.decimal data.length)) := by
    intro hr hm
    by_cases hd : data = []
    · simp [cl, hd] at hm
    · simpa [cl, hd] using hm
  let h' : Headers := { h with raw_host := host, headers := setHost host h.headers ++ cl }
  have hreq : http_request h remote default_host data = encode h' ++ data := by
    unfold http_request set_request_host
    simp only [hp, Bool.false_eq_true, if_false]
    have e1 : (if h.raw_host = [] then if default_host ≠ [] then default_host else remote else h.raw_host) = host := by
      rw [hhost]; by_cases hr : h.raw_host = [] <;> simp [hr]
    rw [e1]
    by_cases hd : data = []
    · simp [h', cl, hd, hp]
    · simp [h', cl, hd, hp]
  have ho : (OriginForm.mk (slashed h.raw_path) (nonEmpty h.raw_query) none).Valid :=
    ⟨slashed_start _, slashed_chars _ hpath, by intro t ht c hc; rw [nonEmpty_some ht] at hc; exact hquery c hc, by simp⟩
  have ht : encode_target h' = (OriginForm.mk (slashed h.raw_path) (nonEmpty h.raw_query) none).text := target_eq h' hp
  have hnames : ∀ hr ∈ h'.headers, hr.1 ≠ [] ∧ OneLine hr.1 ∧ OneLine (as_string hr.2) := by
    intro hr hm
    rcases List.mem_append.mp hm with hm | hm
    · rcases s3 hr hm with hm | ⟨v, hm, e⟩ | rfl
      · exact hl.2.2 hr hm
      · have := hl.2.2 _ hm
        exact ⟨this.1, this.2.1, by rw [e]; exact hl.2.1⟩
      · exact ⟨by simp, lit.2.1, hl.2.1⟩
    · rw [hcl hr hm]
      exact ⟨by simp, lit.2.2, Http.decNum_oneLine (Http.decimal_decNum _)⟩
  have hread := request_read h' data (by unfold methodText; split; exact lit.1; exact hl.1) (by rw [ht]; exact origin_oneLine ho rfl) (fun hr hm => (hnames hr hm).2)
  have hhosts : OneHost h'.headers host := oneHost_append s1 cl (by intro hr hm; rw [hcl hr hm]; exact cl_not_host)
  refine ⟨encode_target h', h'.headers, ?_, hhosts, ⟨cl, ?_, ?_, ?_⟩, ?_⟩
  · rw [hreq, hread, header_lines_strs _ (fun hr hm => (hnames hr hm).1)]; rfl
  · have ecl : others cl = cl := others_none (by intro hr hm; rw [hcl hr hm]; exact cl_not_host)
    show others (setHost host h.headers ++ cl) = others h.headers ++ cl
    rw [← s2]
    conv => rhs; rw [← ecl]
    exact List.filter_append _ _
  · intro hd; simp [cl, hd]
  · intro hd; exact ⟨_, Http.decimal_decNum _, by simp [cl, hd]⟩
  · intro hn m
    rw [ht] at hn ⊢
    rw [target_origin m h'.headers _ ho host hhosts hn]
    simp only [nonEmpty_getD, slashed]
    congr 2
    by_cases h1 : h.raw_path.head? = some (chr '/') <;> simp [h1]

example : http_request { method := b! "POST", raw_path := b! "/a", raw_query := b! "b", headers := [(b! "X", some (b! "y"))] } (b! "1.2.3.4:80") (b! "h") (b! "data")
    = b! "POST /a?b HTTP/1.1\r\nX: y\r\nHost: h\r\nContent-Length: 4\r\n\r\ndata" := by decide +kernel

/-- C74.  The target of a request to a proxy is read back as it was: with the userinfo, the host, the port, the path and the
query.  PARTIAL: not for a host that is an IPv6 address (see `C74_ipv6`). -/
theorem C74_proxy_partial (h : Headers) (hp : h.is_proxy = true) (hu : ∀ c ∈ h.raw_userinfo, c ∈ userinfoChars) (hh : h.raw_host ≠ [])
    (hh' : ∀ c ∈ h.raw_host, c ∈ hostChars) (hpt : h.port ≤ 65535) (hpa : ∀ c ∈ h.raw_path, c ∈ pathChars) (hq : ∀ c ∈ h.raw_query, c ∈ queryChars) :
    (∃ rest, encode h = (if h.method = [] then b! "GET" else h.method) ++ b! " " ++ encode_target h ++ b! " HTTP/1.1" ++ rest) ∧
    ∀ m hs, parse_target { method := m, headers := hs } (encode_target h) = .ok
      { method := m, headers := hs, is_proxy := true, is_ssl := h.is_ssl
        port := if h.port = 0 then if h.is_ssl then 443 else 80 else h.port
        raw_host := h.raw_host, raw_userinfo := h.raw_userinfo
        raw_path := if h.raw_path.head? = some (chr '/') then h.raw_path else b! "/" ++ h.raw_path
        raw_query := h.raw_query } := by
  refine ⟨?_, ?_⟩
  · simp only [encode, List.append_assoc]
    exact ⟨_, rfl⟩
  intro m hs
  rw [target_absolute m hs (absOf h) (abs_valid h hu hh hh' hpt hpa hq) _ (target_abs_eq h hp) (.inr (.inl (by simp [absOf])))]
  simp only [absHeaders, absOf, nonEmpty_getD, Option.getD_some, slashed]
  congr 2
  · by_cases h0 : h.port = 0 <;> simp [h0] <;> rfl
  · by_cases h1 : h.raw_path.head? = some (chr '/') <;> simp [h1]

example : encode_target { is_proxy := true, raw_userinfo := b! "u", raw_host := b! "h", port := 8080, raw_path := b! "/a", raw_query := b! "b" } = b! "http://u@h:8080/a?b" := by decide +kernel

/-- C74 is violated: the target `http://[::1]:8080/` is accepted, but when the request is sent on to another proxy, its target is not
accepted there. -/
theorem C74_ipv6 : ∃ h, parse_target {} (b! "http://[::1]:8080/") = .ok h ∧ encode_target h = b! "http://::1:8080/" ∧ parse_target {} (encode_target h) = .error .invalidHost :=
  ⟨{ is_proxy := true, port := 8080, raw_host := b! "::1", raw_path := b! "/" }, by decide +kernel, by decide +kernel, by decide +kernel⟩

end Verif.Props
