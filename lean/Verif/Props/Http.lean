import Verif.Proofs.HttpMessage
/-! # C17, C22, C23, C24: query strings, field names, responses -/
namespace Verif.Props
open Verif.Http Verif.Spec

/-! ### C22 -/

/-- C22: a name is rejected exactly when it has a character other than a letter, a digit, `-` or `_`; otherwise it becomes
a text of the same length that differs only in case and has no upper-case letter. -/
theorem C22_canonicalize (s : Bytes) :
    ((canonicalize s).isSome = true ↔ ∀ c ∈ s, c ∈ fieldNameChars) ∧
    ∀ t, canonicalize s = some t → SameButCase s t ∧ t.length = s.length ∧ ∀ c ∈ t, ¬ (0x41 ≤ c ∧ c ≤ 0x5A) := by
  rw [canonicalize_eq]
  by_cases h : ∀ c ∈ s, c ∈ fieldNameChars
  · rw [if_pos h]
    refine ⟨by simpa using h, ?_⟩
    intro t ht
    simp only [Option.some.injEq] at ht
    subst ht
    refine ⟨(sameButCase_iff _ _).2 ?_, by simp, ?_⟩
    · simp only [List.map_map]
      exact List.map_congr_left fun c hc => ((lower_mem c (h c hc)).2).symm
    · intro c hc
      obtain ⟨x, -, rfl⟩ := List.mem_map.1 hc
      exact (forall_byte (by decide +kernel) : ∀ x : Byte, ¬ (0x41 ≤ ascii_lower x ∧ ascii_lower x ≤ 0x5A)) x
  · rw [if_neg h]
    exact ⟨by simpa using h, by simp⟩

/-- C22: names that differ only in case become equal (or are both rejected). -/
theorem C22_case (s t : Bytes) (h : SameButCase s t) : canonicalize s = canonicalize t := by
  rw [canonicalize_eq, canonicalize_eq, (sameButCase_iff s t).1 h]
  have key : ∀ c : Byte, c ∈ fieldNameChars ↔ ascii_lower c ∈ fieldNameChars := forall_byte (by decide +kernel)
  have all : ∀ s : Bytes, (∀ c ∈ s, c ∈ fieldNameChars) ↔ ∀ c ∈ s.map ascii_lower, c ∈ fieldNameChars := by
    intro s
    simp only [List.mem_map, forall_exists_index, and_imp, forall_apply_eq_imp_iff₂]
    exact ⟨fun h c hc => (key c).1 (h c hc), fun h c hc => (key c).2 (h c hc)⟩
  have : (∀ c ∈ s, c ∈ fieldNameChars) ↔ ∀ c ∈ t, c ∈ fieldNameChars := by
    rw [all s, all t, (sameButCase_iff s t).1 h]
  by_cases hs : ∀ c ∈ s, c ∈ fieldNameChars
  · rw [if_pos hs, if_pos (this.1 hs)]
  · rw [if_neg hs, if_neg (fun h => hs (this.2 h))]

/-- C22: canonicalizing twice is canonicalizing once. -/
theorem C22_idempotent (s t : Bytes) (h : canonicalize s = some t) : canonicalize t = some t := by
  rw [← C22_case s t ((C22_canonicalize s).2 t h).1, h]

/-- C22: two names compare equal exactly when they differ only in case. -/
theorem C22_compare (s t : Bytes) : name_eq s t = true ↔ SameButCase s t := by
  rw [sameButCase_iff]; simp [name_eq]

example : canonicalize (b! "Sec-WebSocket_Key9") = some (b! "sec-websocket_key9") := by decide +kernel
example : canonicalize (b! "a:b") = none ∧ canonicalize [0xC1] = none ∧ canonicalize (b! "@") = none ∧ canonicalize (b! "[") = none := by
  decide +kernel
example : name_eq (b! "Content-LENGTH") (b! "content-length") = true ∧ name_eq (b! "@") (b! "`") = false := by decide +kernel

/-! ### C17 -/

/-- C17 (part): appending any non-empty list of pairs of arbitrary bytes to an empty query and iterating the result gives the
same pairs in the same order, and then the end without an error.  Missing: the empty list, see `C17_violated`. -/
theorem C17_partial (ps : List (Bytes × Bytes)) (hne : ps ≠ []) (fuel : Nat) (hf : ps.length < fuel) :
    let q := QueryParser.reload (ps.foldl (fun raw p => encode_and_append_query raw p.1 p.2) [])
    (q.elements fuel).1 = ps.map (fun p => (p.1, some p.2)) ∧
    (q.elements fuel).2.next_element.2 = false ∧ (q.elements fuel).2.hpos ≠ .error := by
  intro q
  obtain ⟨es, h1, h2, h3⟩ := encode_all ps [] [] .nil (by simp)
  have hq : q.Before [] (joinWith (chr '&') es ++ []) := ⟨by simp [q, QueryParser.reload, ← h3, joinWith], .inl ⟨rfl, rfl⟩⟩
  have hes : es ≠ [] := by
    intro h; subst h; simp only [List.length_nil, Nat.zero_add] at h2
    exact hne (List.length_eq_zero_iff.1 h2.symm)
  obtain ⟨q', r1, r2, r3⟩ := elements_ok h1 hes [] (.inl rfl) (fuel - es.length) q [] hq
  have hend : q'.hpos = .at q'.hstr.length := by
    rw [r2, r1, hq.1]; simp
  have hlen : fuel - es.length + es.length = fuel := by simp at h2; omega
  rw [hlen, elements_end q' hend] at r3
  rw [r3]
  refine ⟨by simp, ?_, by simp [r2]⟩
  simp [QueryParser.next_element, hend]

/-- C17 fails for the empty list: iterating an empty query gives one element with an empty name and a null value. -/
theorem C17_violated : ((QueryParser.reload []).elements 5).1 = [([], none)] := by decide +kernel

/-- Arbitrary bytes, delimiters and empty texts. -/
example : ((QueryParser.reload (([(b! "a b", b! "=&%+"), ([], []), ([0, 0xFF, 0x3D], b! "~")] : List (Bytes × Bytes)).foldl
      (fun raw p => encode_and_append_query raw p.1 p.2) [])).elements 9).1
    = [(b! "a b", some (b! "=&%+")), ([], some []), ([0, 0xFF, 0x3D], some (b! "~"))] := by decide +kernel

/-- C17 (parser alone): a query is split at `&`; the elements are reported in order, each by its name and value, up to the
end; no element is dropped, merged or added. -/
theorem C17_all (es : List Bytes) (xs : List (Bytes × Option Bytes)) (hne : es ≠ []) (h : Each QueryElement es xs) (fuel : Nat)
    (hf : es.length < fuel) :
    let q := QueryParser.reload (joinWith (chr '&') es)
    (q.elements fuel).1 = xs ∧ (q.elements fuel).2.next_element.2 = false ∧ (q.elements fuel).2.hpos ≠ .error := by
  intro q
  have hq : q.Before [] (joinWith (chr '&') es ++ []) := ⟨by simp [q, QueryParser.reload], .inl ⟨rfl, rfl⟩⟩
  obtain ⟨q', r1, r2, r3⟩ := elements_ok h hne [] (.inl rfl) (fuel - es.length) q [] hq
  have hend : q'.hpos = .at q'.hstr.length := by
    rw [r2, r1, hq.1]; simp
  rw [show fuel - es.length + es.length = fuel by omega, elements_end q' hend] at r3
  rw [r3]
  refine ⟨by simp, ?_, by simp [r2]⟩
  simp [QueryParser.next_element, hend]

example : Each QueryElement [b! "a=1=2", b! "", b! "x%2fy"] [(b! "a", some (b! "1=2")), ([], none), (b! "x/y", none)] := by
  have hx : ∀ c : Byte, c ∈ alnumChars ++ b! "-._~!$'()*,;:@/?=" → PlainQueryChar c := fun c h => .inr h
  refine .cons ?_ (.cons ?_ (.cons ?_ .nil))
  · exact QueryElement.pair (s := b! "a") (t := b! "1=2") (by decide) (.plain (hx _ (by decide)) .nil)
      (.plain (hx _ (by decide)) (.plain (hx _ (by decide)) (.plain (hx _ (by decide)) .nil)))
  · exact .name (by decide) .nil
  · exact .name (by decide) (.plain (hx _ (by decide)) (.escape (x := 2) (y := 15) (.dec 2 (by decide)) (.lower 15 (by decide) (by decide))
      (.plain (hx _ (by decide)) .nil)))

/-- C17 (parser alone): the first piece between `&`s that is no element (a bad character or escape) ends the iteration with an
error, behind exactly the elements before it, whatever follows. -/
theorem C17_error (es : List Bytes) (xs : List (Bytes × Option Bytes)) (h : Each QueryElement es xs) (bad : Bytes)
    (hb : ¬ ∃ x, QueryElement bad x) (ha : chr '&' ∉ bad) (more : List Bytes) (fuel : Nat) (hf : es.length < fuel) :
    let q := QueryParser.reload (joinWith (chr '&') (es ++ bad :: more))
    (q.elements fuel).1 = xs ∧ (q.elements fuel).2.next_element.2 = false ∧ (q.elements fuel).2.hpos = .error := by
  intro q
  obtain ⟨tail, ht, hj⟩ := atEnd_join more
  cases h with
  | nil =>
    have hq : q.Before [] (bad ++ tail) := ⟨by simp [q, QueryParser.reload, hj], .inl ⟨rfl, rfl⟩⟩
    have := elements_error q hq hb ha ht (fuel - 1)
    rw [show fuel - 1 + 1 = fuel by omega] at this
    rw [this]; exact ⟨rfl, rfl, rfl⟩
  | @cons e x es' xs' he hes =>
    have hne : e :: es' ≠ [] := by simp
    have hq : q.Before [] (joinWith (chr '&') (e :: es') ++ chr '&' :: (bad ++ tail)) :=
      ⟨by simp only [q, QueryParser.reload, List.nil_append]; rw [join_append _ _ hne (by simp), hj], .inl ⟨rfl, rfl⟩⟩
    obtain ⟨q', r1, r2, r3⟩ := elements_ok (.cons he hes) hne _ (.inr ⟨_, rfl⟩) (fuel - (e :: es').length) q [] hq
    rw [show fuel - (e :: es').length + (e :: es').length = fuel by omega] at r3
    have hq' : q'.Before (joinWith (chr '&') (e :: es') ++ [chr '&']) (bad ++ tail) :=
      ⟨by rw [r1, hq.1]; simp, .inr ⟨_, r2, by simp⟩⟩
    have := elements_error q' hq' hb ha ht (fuel - (e :: es').length - 1)
    rw [show fuel - (e :: es').length - 1 + 1 = fuel - (e :: es').length by omega] at this
    rw [this] at r3
    rw [r3]; exact ⟨by simp, rfl, rfl⟩

example : ((QueryParser.reload (b! "a=1&b=%4&c=3")).elements 9) =
    ([(b! "a", some (b! "1"))], ⟨b! "a=1&b=%4&c=3", .error, b! "a", some (b! "1")⟩) := by decide +kernel

/-! ### C23 -/

/-- Statuses that never have a body. -/
def Bodyless (status : Nat) : Prop := status ≤ 199 ∨ status = 204 ∨ status = 304

/-- C23 (part): for a response whose reason and headers contain no line breaks and whose caller gave no `Content-Length`, a
reader that splits the written bytes at the first empty line finds: for a bodyless status, exactly the caller's headers and
no body; otherwise exactly one `Content-Length`, whose value is the decimal number of bytes in the body, and behind the empty line
the body, or nothing if the request was HEAD.  Missing: see `C23_violated_duplicate` and `C23_violated_break`. -/
theorem C23_partial (status_str : Nat → Bytes) (hs : ∀ n, OneLine (status_str n)) (head : Bool) (r : SHeaders) (data : Bytes)
    (h1 : OneLine r.reason) (h2 : ∀ h ∈ r.headers, OneLine h.1 ∧ OneLine h.2)
    (h3 : ∀ h ∈ r.headers, ∀ v, ¬ fieldValue (b! "content-length") (h.1 ++ b! ": " ++ h.2) v) :
    ∃ status lines body, readHead (http_response status_str head r data) [] = some (status :: lines, body) ∧
      (Bodyless r.status → body = [] ∧ ∀ l ∈ lines, ∀ v, ¬ fieldValue (b! "content-length") l v) ∧
      (¬ Bodyless r.status → (body = if head then [] else data) ∧
        ∃ others line value, lines = others ++ [line] ∧ (∀ l ∈ others, ∀ v, ¬ fieldValue (b! "content-length") l v) ∧
          fieldValue (b! "content-length") line value ∧ DecNum value data.length) := by
  have hno : ∀ l ∈ header_lines r.headers, ∀ v, ¬ fieldValue (b! "content-length") l v := by
    intro l hl
    simp only [header_lines, List.mem_map, List.mem_filter] at hl
    obtain ⟨h, ⟨hm, _⟩, rfl⟩ := hl
    exact h3 h hm
  unfold http_response
  by_cases hb : r.status ≤ 199 ∨ r.status = 204 ∨ r.status = 304
  · rw [if_pos hb]
    refine ⟨_, _, _, raw_response_read status_str r [] h1 (hs _) h2, fun _ => ⟨rfl, hno⟩, fun h => absurd hb h⟩
  · rw [if_neg hb]
    refine ⟨_, _, _, raw_response_read status_str _ _ h1 (hs _) ?_, fun h => absurd h hb, fun _ => ⟨rfl, ?_⟩⟩
    · intro h hm
      rcases List.mem_append.1 hm with hm | hm
      · exact h2 h hm
      · obtain rfl := List.mem_singleton.1 hm
        exact ⟨(by unfold OneLine; decide : OneLine (b! "Content-Length")), decNum_oneLine (decimal_decNum _)⟩
    · refine ⟨header_lines r.headers, b! "Content-Length: " ++ decimal data.length, decimal data.length, ?_, hno,
        ⟨b! "Content-Length", ?_, rfl⟩, decimal_decNum _⟩
      · simp [header_lines]
      · rw [sameButCase_iff]; decide

/-- A response with a body, to GET and to HEAD, and one that must not have a body. -/
example :
    http_response (fun _ => b! "OK") false ⟨200, [], [(b! "Server", b! "x"), ([], b! "skipped")]⟩ (b! "hello world")
      = b! "HTTP/1.1 200 OK\r\nServer: x\r\nContent-Length: 11\r\n\r\nhello world" ∧
    http_response (fun _ => b! "OK") true ⟨200, b! "Fine", []⟩ (b! "hello world")
      = b! "HTTP/1.1 200 Fine\r\nContent-Length: 11\r\n\r\n" ∧
    http_response (fun _ => b! "No") false ⟨204, [], []⟩ (b! "hello world") = b! "HTTP/1.1 204 No\r\n\r\n" := by decide +kernel

/-- The hypotheses of `C23_partial` hold for such a response. -/
example : let r : SHeaders := ⟨200, [], [(b! "Server", b! "x")]⟩
    OneLine r.reason ∧ (∀ h ∈ r.headers, OneLine h.1 ∧ OneLine h.2) ∧
    (∀ h ∈ r.headers, ∀ v, ¬ fieldValue (b! "content-length") (h.1 ++ b! ": " ++ h.2) v) := by
  refine ⟨by unfold OneLine; decide, by unfold OneLine; decide, ?_⟩
  intro h hm v ⟨n, hn, e⟩
  obtain rfl := List.mem_singleton.1 hm
  cases hn with
  | cons ha _ =>
    simp only [List.cons_append, List.cons.injEq] at e
    rw [← e.1, ← casePair_iff] at ha
    revert ha; decide

/-- C23 is violated when the caller's headers already have a `Content-Length`: both are written, and they disagree. -/
theorem C23_violated_duplicate : readHead (http_response (fun _ => b! "OK") false ⟨200, [], [(b! "content-length", b! "3")]⟩ (b! "hello")) []
    = some ([b! "HTTP/1.1 200 OK", b! "content-length: 3", b! "Content-Length: 5"], b! "hello") := by decide +kernel

/-- C23 is violated when a header value contains line breaks: they are written as they are, and the peer takes the text behind
them for the body. -/
theorem C23_violated_break : readHead (http_response (fun _ => b! "OK") false ⟨200, [], [(b! "x", b! "1\r\n\r\nfoo")]⟩ (b! "hello")) []
    = some ([b! "HTTP/1.1 200 OK", b! "x: 1"], b! "foo\r\nContent-Length: 5\r\n\r\nhello") := by decide +kernel

/-! ### C24 -/

/-- C24: what is written by any sequence of chunked sends and finish is a chunked body that denotes the concatenation of the
data; it ends exactly at the end of finish, whatever bytes follow. -/
theorem C24_decodes (sends : List Bytes) (rest : Bytes) :
    ChunkedBody (sends.flatMap chunked_send ++ chunked_finish ++ rest) sends.flatten rest := by
  rw [List.append_assoc]; exact chunked_sends sends rest

/-- C24: a peer cannot read those bytes in another way. -/
theorem C24_only (sends : List Bytes) (rest data rest' : Bytes)
    (h : ChunkedBody (sends.flatMap chunked_send ++ chunked_finish ++ rest) data rest') : data = sends.flatten ∧ rest' = rest := by
  obtain ⟨rfl, rfl⟩ := chunked_unique (C24_decodes sends rest) h
  exact ⟨rfl, rfl⟩

/-- C24: before finish the body is not complete: no sequence of sends (empty ones included) ends it. -/
theorem C24_open (sends : List Bytes) : ¬ ∃ data rest, ChunkedBody (sends.flatMap chunked_send) data rest := by
  rintro ⟨d, r, h⟩
  have h2 := chunked_extend h chunked_finish
  have h3 := C24_decodes sends []
  rw [List.append_nil] at h3
  have := (chunked_unique h3 h2).2
  have := congrArg List.length this
  simp [chunked_finish] at this

/-- C24: the head written by the start announces a chunked body, and nothing of the body. -/
theorem C24_start (status_str : Nat → Bytes) (hs : ∀ n, OneLine (status_str n)) (r : SHeaders)
    (h1 : OneLine r.reason) (h2 : ∀ h ∈ r.headers, OneLine h.1 ∧ OneLine h.2) :
    ∃ lines line, readHead (chunked_start status_str r) [] = some (lines ++ [line], []) ∧
      fieldValue (b! "transfer-encoding") line (b! "chunked") := by
  have hr := raw_response_read status_str { r with headers := r.headers ++ [(b! "Transfer-Encoding", b! "chunked")] } [] h1 (hs _) (by
    intro h hm
    rcases List.mem_append.1 hm with hm | hm
    · exact h2 h hm
    · obtain rfl := List.mem_singleton.1 hm
      exact ⟨by unfold OneLine; decide, by unfold OneLine; decide⟩)
  refine ⟨status_line status_str r :: header_lines r.headers, b! "Transfer-Encoding: chunked", hr.trans ?_, b! "Transfer-Encoding", ?_, rfl⟩
  · simp [header_lines, status_line]
  · rw [sameButCase_iff]; decide

example : ([b! "hello", [], b! " world, long enough"] : List Bytes).flatMap chunked_send ++ chunked_finish
    = b! "5\r\nhello\r\n13\r\n world, long enough\r\n0\r\n\r\n" := by decide +kernel
example : chunked_send (List.replicate 171 65) = b! "AB\r\n" ++ List.replicate 171 65 ++ b! "\r\n" := by decide +kernel

end Verif.Props
