import Verif.Spec.HttpExchange
import Verif.Proofs.HttpTarget
/-! # What HTTP sessions write are messages of RFC 9112 -/
namespace Verif.HttpExchange
open Verif.Spec Verif.Spec.Exchange
open Verif.Http (ascii_lower)
open Verif.HttpRequest (Headers Cfg strs setHost encode encode_target slashed nonEmpty)

/-! ### Names -/

theorem sbc_names {a x y : Bytes} (h1 : SameButCase a x) (h2 : SameButCase a y) : x.map ascii_lower = y.map ascii_lower := by
  rw [Http.sameButCase_iff] at h1 h2
  rw [← h1, h2]

theorem sbc_self (x : Bytes) : SameButCase x x := by rw [Http.sameButCase_iff]

/-- The names that matter are different. -/
def reserved : List Bytes := [b! "Content-Length", b! "Transfer-Encoding", b! "Connection", b! "Proxy-Connection", b! "Upgrade", b! "Host"]

theorem names_differ {a x y : Bytes} (h1 : SameButCase a x) (hx : x ∈ reserved) (hy : y ∈ reserved) (h : x ≠ y) : ¬ SameButCase a y := by
  intro h2
  have h3 := sbc_names h1 h2
  have : ∀ x ∈ reserved, ∀ y ∈ reserved, x ≠ y → x.map ascii_lower ≠ y.map ascii_lower := by decide +kernel
  exact this x hx y hy h h3

theorem absent_append {fs gs : List (Bytes × Bytes)} {n : Bytes} (h1 : Absent fs n) (h2 : Absent gs n) : Absent (fs ++ gs) n := by
  intro f hf
  rcases List.mem_append.mp hf with hf | hf
  · exact h1 f hf
  · exact h2 f hf

theorem absent_single {n v m : Bytes} (hn : n ∈ reserved) (hm : m ∈ reserved) (h : n ≠ m) : Absent [(n, v)] m := by
  intro f hf
  obtain rfl := List.mem_singleton.mp hf
  exact names_differ (sbc_self n) hn hm h

theorem only_last {fs : List (Bytes × Bytes)} {n v : Bytes} (h : Absent fs n) : Only (fs ++ [(n, v)]) n v := ⟨fs, [], n, rfl, sbc_self n, by simpa using h⟩

theorem persists_of {fs gs : List (Bytes × Bytes)} {keep : Bool} (h : Persists fs keep)
    (h1 : ∀ f ∈ gs, f ∈ fs ∨ ∃ n ∈ [b! "Content-Length", b! "Transfer-Encoding", b! "Host"], SameButCase f.1 n)
    (h2 : ∀ f ∈ fs, SameButCase f.1 (b! "Connection") → f ∈ gs) : Persists gs keep := by
  have key : ∀ f ∈ gs, ∀ m ∈ [b! "Connection", b! "Proxy-Connection", b! "Upgrade"], SameButCase f.1 m → f ∈ fs := by
    intro f hf m hm hs
    rcases h1 f hf with h | ⟨n, hn, hs'⟩
    · exact h
    · refine absurd hs (names_differ hs' ?_ ?_ ?_)
      · have : ∀ n ∈ [b! "Content-Length", b! "Transfer-Encoding", b! "Host"], n ∈ reserved := by decide +kernel
        exact this n hn
      · have : ∀ n ∈ [b! "Connection", b! "Proxy-Connection", b! "Upgrade"], n ∈ reserved := by decide +kernel
        exact this m hm
      · have : ∀ n ∈ [b! "Content-Length", b! "Transfer-Encoding", b! "Host"], ∀ m ∈ [b! "Connection", b! "Proxy-Connection", b! "Upgrade"], n ≠ m := by decide +kernel
        exact this n hn m hm
  refine ⟨?_, ?_, ?_, ?_⟩
  · intro f hf hc
    exact h.connection f (key f hf _ (by simp) hc) hc
  · rw [h.close]
    constructor
    · rintro ⟨f, hf, a, b⟩; exact ⟨f, h2 f hf a, a, b⟩
    · rintro ⟨f, hf, a, b⟩; exact ⟨f, key f hf _ (by simp) a, a, b⟩
  · intro f hf hc; exact h.proxy f (key f hf _ (by simp) hc) hc
  · intro f hf hc; exact h.upgrade f (key f hf _ (by simp) hc) hc

/-! ### Hosts -/

theorem texts_append (a b : List (Bytes × Option Bytes)) : texts (a ++ b) = texts a ++ texts b := List.map_append

theorem hosted_set {host : Bytes} {hs hs' : List (Bytes × Option Bytes)} (h : Hosted host hs hs') : setHost host hs = hs' ∧ OneHost hs' host := by
  cases h with
  | add h => exact ⟨HttpRequest.setHost_none host hs h, hs, [], _, _, rfl, rfl, sbc_self _, by simpa using h⟩
  | @set a b n v h1 h2 => exact ⟨HttpRequest.setHost_one host a b n v (fun hr hm => h2 hr (by simp [hm])) h1, a, b, _, _, rfl, rfl, h1, h2⟩

theorem hosted_mem {host : Bytes} {hs hs' : List (Bytes × Option Bytes)} (h : Hosted host hs hs') : ∀ f ∈ texts hs',
    f ∈ texts hs ∨ SameButCase f.1 (b! "Host") ∧ f.2 = host ∧ (f.1 = b! "Host" ∨ ∃ v, (f.1, v) ∈ texts hs) := by
  intro f hf
  cases h with
  | add h =>
    rw [texts_append] at hf
    rcases List.mem_append.mp hf with hf | hf
    · exact .inl hf
    · simp only [texts, List.map_cons, List.map_nil, List.mem_singleton] at hf
      subst hf
      exact .inr ⟨sbc_self _, rfl, .inl rfl⟩
  | @set a b n v h1 h2 =>
    rw [texts_append] at hf ⊢
    rcases List.mem_append.mp hf with hf | hf
    · exact .inl (by simp [hf])
    · simp only [texts, List.map_cons, List.mem_cons] at hf
      rcases hf with rfl | hf
      · exact .inr ⟨h1, rfl, .inr ⟨v.getD [], by simp [texts]⟩⟩
      · refine .inl (List.mem_append_right _ ?_)
        simp only [texts, List.map_cons, List.mem_cons]
        exact .inr hf

theorem hosted_keep {host : Bytes} {hs hs' : List (Bytes × Option Bytes)} (h : Hosted host hs hs') : ∀ f ∈ texts hs, ¬ SameButCase f.1 (b! "Host") → f ∈ texts hs' := by
  intro f hf hn
  cases h with
  | add h => rw [texts_append]; exact List.mem_append_left _ hf
  | @set a b n v h1 h2 =>
    rw [texts_append] at hf ⊢
    rcases List.mem_append.mp hf with hf | hf
    · simp [hf]
    · simp only [texts, List.map_cons, List.mem_cons] at hf
      rcases hf with rfl | hf
      · exact absurd h1 hn
      · refine List.mem_append_right _ ?_
        simp only [texts, List.map_cons, List.mem_cons]
        exact .inr hf

theorem host_token : ∀ c ∈ b! "Host", c ∈ tokenChars := by decide

theorem hosted_good {host : Bytes} {hs hs' : List (Bytes × Option Bytes)} (h : Hosted host hs hs') (hg : GoodFields (texts hs)) (hh : FieldText host) : GoodFields (texts hs') := by
  intro f hf
  rcases hosted_mem h f hf with hf | ⟨_, e, hf | ⟨v, hf⟩⟩
  · exact hg f hf
  · rw [hf, e]; exact ⟨by simp, host_token, hh⟩
  · have := hg _ hf
    rw [e]; exact ⟨this.1, this.2.1, hh⟩

theorem hosted_absent {host : Bytes} {hs hs' : List (Bytes × Option Bytes)} (h : Hosted host hs hs') {n : Bytes} (hn : n ∈ reserved) (hne : n ≠ b! "Host") (ha : Absent (texts hs) n) :
    Absent (texts hs') n := by
  intro f hf
  rcases hosted_mem h f hf with hf | ⟨hs, _⟩
  · exact ha f hf
  · exact names_differ hs (by decide) hn (Ne.symm hne)

/-! ### Texts -/

theorem fieldLines_eq (start : Bytes) (fs : List (Bytes × Bytes)) (hn : ∀ f ∈ fs, f.1 ≠ []) (body : Bytes) :
    (start :: Http.header_lines fs).flatMap (fun l => l ++ Http.crlf) ++ (Http.crlf ++ body) = start ++ b! "\r\n" ++ fieldLines fs ++ body := by
  have e : Http.header_lines fs = fs.map (fun f => f.1 ++ b! ": " ++ f.2) := by
    unfold Http.header_lines
    rw [List.filter_eq_self.mpr]
    intro f hf
    simpa using hn f hf
  rw [e, List.flatMap_cons, List.flatMap_map, fieldLines]
  have e2 : (fun a : Bytes × Bytes => a.1 ++ b! ": " ++ a.2 ++ Http.crlf) = (fun f => f.1 ++ b! ": " ++ f.2 ++ b! "\r\n") := rfl
  rw [e2]
  simp only [List.append_assoc]
  rfl

theorem fieldText_plain {v : Bytes} (h : FieldText v) : ∀ c ∈ v, c ≠ 13 ∧ c ≠ 10 := by
  intro c hc
  rcases h.chars c hc with rfl | ⟨h1, _⟩
  · decide
  · constructor <;> rintro rfl <;> revert h1 <;> decide

theorem decimal_fieldText (n : Nat) : FieldText (Http.decimal n) := by
  have h : ∀ c ∈ Http.decimal n, 48 ≤ c.toNat ∧ c.toNat ≤ 57 := by
    have hd := Http.decimal_decNum n
    generalize Http.decimal n = d at hd
    induction hd with
    | nil => intro c hc; cases hc
    | snoc v _ hv ih =>
      intro c hc
      rcases List.mem_append.mp hc with hc | hc
      · exact ih c hc
      · obtain rfl := List.mem_singleton.mp hc
        simp only [UInt8.toNat_ofNat']
        omega
  have h2 : ∀ c ∈ Http.decimal n, c ≠ 9 ∧ c ≠ 32 ∧ 32 ≤ c.toNat ∧ c ≠ 127 := by
    intro c hc
    have := h c hc
    refine ⟨?_, ?_, by omega, ?_⟩ <;> (rintro rfl; revert this; decide)
  refine ⟨fun c hc => .inr ⟨(h2 c hc).2.2.1, (h2 c hc).2.2.2⟩, fun c t e => ?_, fun c t e => ?_⟩
  · have := h2 c (by rw [e]; simp); exact ⟨this.1, this.2.1⟩
  · have := h2 c (by rw [e]; simp); exact ⟨this.1, this.2.1⟩

theorem chunked_fieldText : FieldText (b! "chunked") := by
  refine ⟨by decide, ?_, ?_⟩
  · intro c t e
    obtain rfl : c = 99 := by have := congrArg List.head? e; simpa using this.symm
    decide
  · intro c t e
    obtain rfl : c = 100 := by have := congrArg List.getLast? e; simpa using this.symm
    decide

theorem send_same (data : Bytes) : http_chunked_request_send data = Http.chunked_send data := rfl

/-! ### Requests -/

theorem occurs_target {path query : Bytes} (h : ¬ Occurs (b! "://") (path ++ b! "?" ++ query)) :
    ¬ Occurs (b! "://") (OriginForm.mk (slashed path) (nonEmpty query) none).text := by
  rintro ⟨a, b, e⟩
  apply h
  have e1 : (OriginForm.mk (slashed path) (nonEmpty query) none).text = slashed path ++ optText (b! "?") (nonEmpty query) := by simp [OriginForm.text, optText]
  rw [e1] at e
  have e2 : ∃ a' b', path ++ optText (b! "?") (nonEmpty query) = a' ++ b! "://" ++ b' := by
    unfold slashed at e
    split at e
    · cases a with
      | nil =>
        have := congrArg List.head? e
        simp at this
      | cons x t =>
        refine ⟨t, b, ?_⟩
        simp only [List.cons_append, List.append_assoc, List.singleton_append, List.cons.injEq] at e
        simpa using e.2
    · exact ⟨a, b, e⟩
  obtain ⟨a', b', e3⟩ := e2
  cases hq : query with
  | nil =>
    rw [hq] at e3
    simp only [nonEmpty, optText, List.append_nil] at e3
    exact ⟨a', b' ++ b! "?", by rw [e3]; simp⟩
  | cons x t =>
    rw [hq] at e3
    refine ⟨a', b', ?_⟩
    rw [← e3]
    simp [nonEmpty, optText]

/-- The header for the payload. -/
def framing : Sending Headers → List (Bytes × Bytes)
  | .whole _ data => if data ≠ [] then [(b! "Content-Length", Http.decimal data.length)] else []
  | .chunks _ _ => [(b! "Transfer-Encoding", b! "chunked")]

/-- What is written for the payload. -/
def bodyText : Sending Headers → Bytes
  | .whole _ data => data
  | .chunks _ pieces => pieces.flatMap Http.chunked_send ++ Http.chunked_finish

/-- The request on the wire. -/
def wireOf (remote default_host : Bytes) (keep : Bool) (q : Sending Headers) : WireRequest where
  method := methodOf q.headers
  target := encode_target q.headers
  fields := texts (setHost (hostOf remote default_host q.headers) q.headers.headers) ++ framing q
  text := bodyText q
  body := q.data
  keep := keep

theorem target_same {h h' : Headers} (hp : h.is_proxy = false) (hp' : h'.is_proxy = false) (h1 : h.raw_path = h'.raw_path) (h2 : h.raw_query = h'.raw_query) : encode_target h = encode_target h' := by
  unfold encode_target
  rw [hp, hp', h1, h2]
  simp

theorem encode_eq (h : Headers) (m t : Bytes) (hm : methodOf h = m) (ht : encode_target h = t) (fs : List (Bytes × Bytes)) (hf : texts h.headers = fs) (hn : ∀ f ∈ fs, f.1 ≠ []) (body : Bytes) :
    encode h ++ body = m ++ b! " " ++ t ++ b! " HTTP/1.1\r\n" ++ fieldLines fs ++ body := by
  subst hm ht
  rw [HttpRequest.encode_request_lines]
  have e : strs h.headers = fs := hf
  rw [e, fieldLines_eq _ _ hn]
  simp only [HttpRequest.requestLine, HttpRequest.methodText, methodOf, List.append_assoc]
  rfl

theorem framing_names (q : Sending Headers) : ∀ f ∈ framing q, f.1 = b! "Content-Length" ∨ f.1 = b! "Transfer-Encoding" := by
  intro f hf
  cases q with
  | whole h data =>
    simp only [framing] at hf
    split at hf
    · obtain rfl := List.mem_singleton.mp hf; exact .inl rfl
    · cases hf
  | chunks h ps => obtain rfl := List.mem_singleton.mp hf; exact .inr rfl

theorem cl_token : ∀ c ∈ b! "Content-Length", c ∈ tokenChars := by decide

theorem framing_good (q : Sending Headers) : GoodFields (framing q) := by
  intro f hf
  cases q with
  | whole h data =>
    simp only [framing] at hf
    split at hf
    · obtain rfl := List.mem_singleton.mp hf
      exact ⟨by simp, cl_token, decimal_fieldText _⟩
    · cases hf
  | chunks h ps =>
    obtain rfl := List.mem_singleton.mp hf
    exact ⟨by simp, by decide, chunked_fieldText⟩

section
variable {remote default_host : Bytes} {c : Cfg} {limit : Nat} {keep : Bool} {q : Sending Headers}

theorem wire_fields (h : Proper remote default_host c limit keep q) : GoodFields (wireOf remote default_host keep q).fields := by
  obtain ⟨hs, hh⟩ := h.one
  intro f hf
  simp only [wireOf, (hosted_set hh).1] at hf
  rcases List.mem_append.mp hf with hf | hf
  · exact hosted_good hh h.fields h.host.2 f hf
  · exact framing_good q f hf

/-- The headers with the host. -/
def hosted (remote default_host : Bytes) (h : Headers) : Headers :=
  { h with raw_host := hostOf remote default_host h, headers := setHost (hostOf remote default_host h) h.headers }

theorem set_host_eq (h : Headers) (hp : h.is_proxy = false) : HttpRequest.set_request_host h remote default_host = hosted remote default_host h := by
  unfold HttpRequest.set_request_host hosted hostOf
  simp only [hp, Bool.false_eq_true, if_false]
  by_cases hr : h.raw_host = [] <;> simp [hr]

theorem wire_eq (h : Proper remote default_host c limit keep q) :
    (calls q).flatMap (callText remote default_host) = (wireOf remote default_host keep q).head ++ bodyText q ∧ (wireOf remote default_host keep q).head.length = headLength remote default_host q := by
  have hn : ∀ f ∈ (wireOf remote default_host keep q).fields, f.1 ≠ [] := fun f hf => (wire_fields h f hf).1
  cases q with
  | whole hd data =>
    have hp : hd.is_proxy = false := h.proxy
    have e : callText remote default_host (.request hd data) = (wireOf remote default_host keep (.whole hd data)).head ++ data := by
      have e1 : callText remote default_host (.request hd data)
          = encode { hosted remote default_host hd with headers := setHost (hostOf remote default_host hd) hd.headers ++ if data ≠ [] then [(b! "Content-Length", some (Http.decimal data.length))] else [] } ++ data := by
        simp only [callText, HttpRequest.http_request, hp, Bool.false_eq_true, if_false, set_host_eq hd hp]
        by_cases hd' : data = []
        · simp [hd', hosted]
        · simp [hd', hosted]
      rw [e1, encode_eq _ (methodOf hd) (encode_target hd) ?_ ?_ (wireOf remote default_host keep (.whole hd data)).fields ?_ hn]
      · rfl
      · rfl
      · exact target_same hp hp rfl rfl
      · simp only [wireOf, texts_append, framing]
        congr 1
        split <;> rfl
    refine ⟨?_, ?_⟩
    · simp only [calls, List.flatMap_cons, List.flatMap_nil, List.append_nil, e]; rfl
    · simp only [headLength, e, List.length_append]; omega
  | chunks hd ps =>
    have hp : hd.is_proxy = false := h.proxy
    have e : callText remote default_host (.chunked_start hd) = (wireOf remote default_host keep (.chunks hd ps)).head := by
      have e1 : callText remote default_host (.chunked_start hd)
          = encode { hosted remote default_host hd with headers := setHost (hostOf remote default_host hd) hd.headers ++ [(b! "Transfer-Encoding", some (b! "chunked"))] } ++ [] := by
        simp only [callText, HttpRequest.http_chunked_request_start, hp, Bool.false_eq_true, if_false, set_host_eq hd hp, List.append_nil]
        rfl
      rw [e1, encode_eq _ (methodOf hd) (encode_target hd) ?_ ?_ (wireOf remote default_host keep (.chunks hd ps)).fields ?_ hn, List.append_nil]
      · rfl
      · rfl
      · exact target_same hp hp rfl rfl
      · simp only [wireOf, texts_append, framing]
        rfl
    refine ⟨?_, ?_⟩
    · simp only [calls, List.cons_append, List.flatMap_cons, List.flatMap_append, List.flatMap_map, e, List.flatMap_nil, List.append_nil]
      rfl
    · simp only [headLength, e]

theorem body_framed (h : Proper remote default_host c limit keep q) :
    let fs := (wireOf remote default_host keep q).fields
    Absent fs (b! "Content-Length") ∧ Absent fs (b! "Transfer-Encoding") ∧ bodyText q = [] ∧ q.data = [] ∨ Framed fs (bodyText q) q.data := by
  intro fs
  obtain ⟨hs, hh⟩ := h.one
  have e : fs = texts hs ++ framing q := by simp only [fs, wireOf, (hosted_set hh).1]
  have a1 : Absent (texts hs) (b! "Content-Length") := hosted_absent hh (by decide) (by decide) h.length
  have a2 : Absent (texts hs) (b! "Transfer-Encoding") := hosted_absent hh (by decide) (by decide) h.coding
  rw [e]
  cases q with
  | whole hd data =>
    by_cases hd' : data = []
    · subst hd'
      exact .inl ⟨by simpa [framing] using a1, by simpa [framing] using a2, rfl, rfl⟩
    · refine .inr ?_
      simp only [framing, ne_eq, hd', not_false_eq_true, if_true]
      exact .length (only_last a1) (absent_append a2 (absent_single (by decide) (by decide) (by decide))) (Http.digits_ne _ _ _ _) (Http.decimal_decNum _) h.content.2
  | chunks hd ps =>
    refine .inr (.chunked (absent_append a1 (absent_single (by decide) (by decide) (by decide))) (only_last a2) ?_ h.content.2)
    have := Http.chunked_sends ps []
    simpa [bodyText, Sending.data] using this

theorem wire_persists (h : Proper remote default_host c limit keep q) : Persists (wireOf remote default_host keep q).fields keep := by
  obtain ⟨hs, hh⟩ := h.one
  have e : (wireOf remote default_host keep q).fields = texts hs ++ framing q := by simp only [wireOf, (hosted_set hh).1]
  rw [e]
  refine persists_of h.persists ?_ ?_
  · intro f hf
    rcases List.mem_append.mp hf with hf | hf
    · rcases hosted_mem hh f hf with hf | ⟨hf, _⟩
      · exact .inl hf
      · exact .inr ⟨_, by simp, hf⟩
    · rcases framing_names q f hf with hf | hf
      · exact .inr ⟨b! "Content-Length", by simp, by rw [hf]; exact sbc_self _⟩
      · exact .inr ⟨b! "Transfer-Encoding", by simp, by rw [hf]; exact sbc_self _⟩
  · intro f hf hc
    exact List.mem_append_left _ (hosted_keep hh f hf (names_differ hc (by decide) (by decide) (by decide)))

theorem wire_origin (h : Proper remote default_host c limit keep q) : (OriginForm.mk (slashed q.headers.raw_path) (nonEmpty q.headers.raw_query) none).Valid :=
  ⟨HttpRequest.slashed_start _, HttpRequest.slashed_chars _ h.path, by intro t ht x hx; rw [HttpRequest.nonEmpty_some ht] at hx; exact h.query x hx, by simp⟩

theorem wire_valid (h : Proper remote default_host c limit keep q) : (wireOf remote default_host keep q).Valid limit where
  method := h.method
  target := ⟨_, wire_origin h, rfl, HttpRequest.target_eq _ h.proxy⟩
  fields := wire_fields h
  framed := body_framed h
  persists := wire_persists h
  size := by rw [(wire_eq h).2]; exact h.head.2

/-- What the server makes of it. -/
def gotOf (remote default_host : Bytes) (keep : Bool) (q : Sending Headers) : Got where
  headers := { method := methodOf q.headers, raw_host := hostOf remote default_host q.headers
               raw_path := if q.headers.raw_path.head? = some (chr '/') then q.headers.raw_path else b! "/" ++ q.headers.raw_path
               raw_query := q.headers.raw_query
               headers := (wireOf remote default_host keep q).fields.map (fun f => (f.1, some f.2)) }
  payload := if methodOf q.headers = b! "POST" ∨ methodOf q.headers = b! "PUT" ∨ methodOf q.headers = b! "PATCH" then q.data else []
  close := !keep

theorem got_target (h : Proper remote default_host c limit keep q) :
    HttpRequest.parse_target { method := methodOf q.headers, headers := (wireOf remote default_host keep q).fields.map (fun f => (f.1, some f.2)) } (encode_target q.headers)
      = .ok (gotOf remote default_host keep q).headers := by
  obtain ⟨hs, hh⟩ := h.one
  have e : (wireOf remote default_host keep q).fields = texts hs ++ framing q := by simp only [wireOf, (hosted_set hh).1]
  have ho : OneHost ((wireOf remote default_host keep q).fields.map (fun f => (f.1, some f.2))) (hostOf remote default_host q.headers) := by
    rw [e, List.map_append]
    refine HttpRequest.oneHost_append ?_ _ ?_
    · obtain ⟨a, b, n, v, rfl, h2, h3, h4⟩ := (hosted_set hh).2
      refine ⟨(texts a).map (fun f => (f.1, some f.2)), (texts b).map (fun f => (f.1, some f.2)), n, some (v.getD []), by simp [texts], h2, h3, ?_⟩
      intro hr hm
      simp only [texts, List.map_map, ← List.map_append, List.mem_map] at hm
      obtain ⟨x, hx, rfl⟩ := hm
      exact h4 x hx
    · intro hr hm
      obtain ⟨f, hf, rfl⟩ := List.mem_map.mp hm
      rcases framing_names q f hf with hf | hf
      · show ¬ SameButCase f.1 _
        rw [hf]; exact names_differ (sbc_self _) (by decide) (by decide) (by decide)
      · show ¬ SameButCase f.1 _
        rw [hf]; exact names_differ (sbc_self _) (by decide) (by decide) (by decide)
  rw [HttpRequest.target_eq _ h.proxy, HttpRequest.target_origin _ _ _ (wire_origin h) _ ho (occurs_target h.scheme)]
  simp only [HttpRequest.nonEmpty_getD, slashed, gotOf]
  congr 2
  by_cases h1 : q.headers.raw_path.head? = some (chr '/') <;> simp [h1]

theorem got_delivers (h : Proper remote default_host c limit keep q) : Delivers remote default_host q (gotOf remote default_host keep q) := by
  obtain ⟨hs, hh⟩ := h.one
  refine ⟨rfl, ⟨hs, framing q, hh, by simp only [gotOf, wireOf, (hosted_set hh).1], ?_⟩, rfl, ?_⟩
  · cases q with
    | whole hd data =>
      by_cases hd' : data = []
      · subst hd'; exact .inl ⟨rfl, rfl⟩
      · refine .inr ⟨?_, ?_⟩
        · intro e; injection e with _ e; exact hd' e
        · simp only [framing, ne_eq, hd', not_false_eq_true, if_true]
          exact .length (Http.decimal_decNum _)
    | chunks hd ps => exact .inr ⟨(by intro e; cases e), .coding⟩
  · rw [← h.persists.close]
    simp [gotOf]

end

/-! ### Responses -/

open Verif.Http (SHeaders)

/-- The header for the payload. -/
def replyFraming : Sending SHeaders → List (Bytes × Bytes)
  | .whole r data => if r.status ≤ 199 ∨ r.status = 204 ∨ r.status = 304 then [] else [(b! "Content-Length", Http.decimal data.length)]
  | .chunks _ _ => [(b! "Transfer-Encoding", b! "chunked")]

/-- What is written for the payload. -/
def replyText (head : Bool) : Sending SHeaders → Bytes
  | .whole r data => if (r.status ≤ 199 ∨ r.status = 204 ∨ r.status = 304) ∨ head = true then [] else data
  | .chunks _ pieces => pieces.flatMap Http.chunked_send ++ Http.chunked_finish

/-- The payload which the client gets. -/
def replyBody (head : Bool) : Sending SHeaders → Bytes
  | .whole r data => if (r.status ≤ 199 ∨ r.status = 204 ∨ r.status = 304) ∨ head = true then [] else data
  | .chunks _ pieces => pieces.flatten

/-- The response on the wire. -/
def replyOf (status_str : Nat → Bytes) (head keep : Bool) (a : Sending SHeaders) : WireReply where
  status := a.headers.status
  digits := Http.decimal a.headers.status
  reason := reasonOf status_str a.headers
  fields := a.headers.headers ++ replyFraming a
  text := replyText head a
  body := replyBody head a
  keep := keep

theorem raw_eq (status_str : Nat → Bytes) (r : SHeaders) (hn : ∀ f ∈ r.headers, f.1 ≠ []) (body : Bytes) :
    Http.raw_response status_str r body = b! "HTTP/1.1 " ++ Http.decimal r.status ++ b! " " ++ reasonOf status_str r ++ b! "\r\n" ++ fieldLines r.headers ++ body := by
  rw [Http.encode_lines, fieldLines_eq _ _ hn]
  simp only [Http.status_line, reasonOf, List.append_assoc]
  by_cases h : r.reason = [] <;> simp [h]

theorem replyFraming_names (a : Sending SHeaders) : ∀ f ∈ replyFraming a, f.1 = b! "Content-Length" ∨ f.1 = b! "Transfer-Encoding" := by
  intro f hf
  cases a with
  | whole r data =>
    simp only [replyFraming] at hf
    split at hf
    · cases hf
    · obtain rfl := List.mem_singleton.mp hf; exact .inl rfl
  | chunks h ps => obtain rfl := List.mem_singleton.mp hf; exact .inr rfl

theorem replyFraming_good (a : Sending SHeaders) : GoodFields (replyFraming a) := by
  intro f hf
  cases a with
  | whole r data =>
    simp only [replyFraming] at hf
    split at hf
    · cases hf
    · obtain rfl := List.mem_singleton.mp hf
      exact ⟨by simp, cl_token, decimal_fieldText _⟩
  | chunks h ps =>
    obtain rfl := List.mem_singleton.mp hf
    exact ⟨by simp, by decide, chunked_fieldText⟩

theorem decimal_three (n : Nat) (h1 : 100 ≤ n) (h2 : n ≤ 999) : (Http.decimal n).length = 3 := by
  have : ∀ m : Fin 900, (Http.decimal (100 + m.val)).length = 3 := by decide +kernel
  have := this ⟨n - 100, by omega⟩
  simpa [show 100 + (n - 100) = n by omega] using this

section
variable {status_str : Nat → Bytes} {c : Cfg} {limit : Nat} {head keep : Bool} {a : Sending SHeaders}

theorem reply_fields (h : Suits status_str c limit head keep a) : GoodFields (replyOf status_str head keep a).fields := by
  intro f hf
  rcases List.mem_append.mp hf with hf | hf
  · exact h.fields f hf
  · exact replyFraming_good a f hf

/-- The bytes which the session passes to `tcp_send()`. -/
def replyBytes (status_str : Nat → Bytes) (head : Bool) : Sending SHeaders → Bytes
  | .whole r data => Http.http_response status_str head r data
  | .chunks r pieces => Http.chunked_start status_str r ++ (pieces.flatMap Http.chunked_send ++ Http.chunked_finish)

theorem reply_eq (h : Suits status_str c limit head keep a) :
    replyBytes status_str head a = (replyOf status_str head keep a).head ++ replyText head a ∧ (replyOf status_str head keep a).head.length = replyLength status_str a := by
  have hn : ∀ f ∈ (replyOf status_str head keep a).fields, f.1 ≠ [] := fun f hf => (reply_fields h f hf).1
  cases a with
  | whole r data =>
    have e : ∀ head', Http.http_response status_str head' r data = (replyOf status_str head keep (.whole r data)).head ++ replyText head' (.whole r data) := by
      intro head'
      unfold Http.http_response
      by_cases hb : r.status ≤ 199 ∨ r.status = 204 ∨ r.status = 304
      · rw [if_pos hb, raw_eq status_str r (by simpa [replyOf, replyFraming, hb, Sending.headers] using hn)]
        simp [replyOf, WireReply.head, replyFraming, replyText, hb, Sending.headers]
      · rw [if_neg hb, raw_eq status_str _ (by simpa [replyOf, replyFraming, hb, Sending.headers] using hn)]
        simp [replyOf, WireReply.head, replyFraming, replyText, hb, Sending.headers, reasonOf]
        rfl
    refine ⟨e head, ?_⟩
    simp only [replyLength, e true, replyText]
    simp
  | chunks r ps =>
    have e : Http.chunked_start status_str r = (replyOf status_str head keep (.chunks r ps)).head := by
      unfold Http.chunked_start
      rw [raw_eq status_str _ hn]
      simp [replyOf, WireReply.head, replyFraming, Sending.headers, reasonOf]
      rfl
    exact ⟨by simp only [replyBytes, e]; rfl, by simp only [replyLength, e]⟩

theorem reply_framed (h : Suits status_str c limit head keep a) :
    let r := replyOf status_str head keep a
    NoPayload r.status ∧ Absent r.fields (b! "Content-Length") ∧ Absent r.fields (b! "Transfer-Encoding") ∧ r.text = [] ∧ r.body = [] ∨
    ¬ NoPayload r.status ∧ head = true ∧ (∃ d n, Only r.fields (b! "Content-Length") d ∧ d ≠ [] ∧ DecNum d n ∧ n < 2 ^ 60) ∧ Absent r.fields (b! "Transfer-Encoding") ∧ r.text = [] ∧ r.body = [] ∨
    ¬ NoPayload r.status ∧ head = false ∧ Framed r.fields r.text r.body := by
  intro r
  cases a with
  | whole w data =>
    by_cases hb : w.status ≤ 199 ∨ w.status = 204 ∨ w.status = 304
    · refine .inl ⟨hb, ?_, ?_, by simp [r, replyOf, replyText, hb], by simp [r, replyOf, replyBody, hb]⟩
      · simpa [r, replyOf, replyFraming, hb] using h.length
      · simpa [r, replyOf, replyFraming, hb] using h.coding
    · have e : r.fields = w.headers ++ [(b! "Content-Length", Http.decimal data.length)] := by simp [r, replyOf, replyFraming, hb, Sending.headers]
      have a2 : Absent r.fields (b! "Transfer-Encoding") := by rw [e]; exact absent_append h.coding (absent_single (by decide) (by decide) (by decide))
      have o1 : Only r.fields (b! "Content-Length") (Http.decimal data.length) := by rw [e]; exact only_last h.length
      cases head with
      | true => exact .inr (.inl ⟨hb, rfl, ⟨_, _, o1, Http.digits_ne _ _ _ _, Http.decimal_decNum _, h.content.2⟩, a2, by simp [r, replyOf, replyText], by simp [r, replyOf, replyBody]⟩)
      | false =>
        have e1 : r.text = data := by simp [r, replyOf, replyText, hb]
        have e2 : r.body = data := by simp [r, replyOf, replyBody, hb]
        refine .inr (.inr ⟨hb, rfl, ?_⟩)
        rw [e1, e2]
        exact .length o1 a2 (Http.digits_ne _ _ _ _) (Http.decimal_decNum _) h.content.2
  | chunks w ps =>
    refine .inr (.inr ⟨(h.chunks w ps rfl).2.1, (h.chunks w ps rfl).1, ?_⟩)
    refine .chunked (absent_append h.length (absent_single (by decide) (by decide) (by decide))) (only_last h.coding) ?_ h.content.2
    have := Http.chunked_sends ps []
    simpa [r, replyOf, replyText, replyBody] using this

theorem reply_persists (h : Suits status_str c limit head keep a) : Persists (replyOf status_str head keep a).fields keep := by
  refine persists_of h.persists ?_ (fun f hf _ => List.mem_append_left _ hf)
  intro f hf
  rcases List.mem_append.mp hf with hf | hf
  · exact .inl hf
  · rcases replyFraming_names a f hf with hf | hf
    · exact .inr ⟨b! "Content-Length", by simp, by rw [hf]; exact sbc_self _⟩
    · exact .inr ⟨b! "Transfer-Encoding", by simp, by rw [hf]; exact sbc_self _⟩

theorem reply_valid (h : Suits status_str c limit head keep a) : (replyOf status_str head keep a).Valid limit head where
  status := ⟨h.status.1, h.status.2.1⟩
  digits := ⟨Http.decimal_decNum _, decimal_three _ h.status.1 h.status.2.1⟩
  reason := h.reason
  fields := reply_fields h
  framed := reply_framed h
  persists := reply_persists h
  size := by rw [(reply_eq h).2]; exact h.head.2

/-- What the client makes of it. -/
def answeredOf (status_str : Nat → Bytes) (head keep : Bool) (a : Sending SHeaders) : Answered where
  headers := { status := a.headers.status, reason := reasonOf status_str a.headers, headers := (a.headers.headers ++ replyFraming a).map (fun f => (f.1, some f.2)) }
  payload := replyBody head a
  close := !keep

theorem answered_arrives (h : Suits status_str c limit head keep a) : Arrives status_str head a (answeredOf status_str head keep a) := by
  refine ⟨rfl, ⟨replyFraming a, rfl, ?_⟩, ?_, ?_⟩
  · cases a with
    | whole r data =>
      by_cases hb : r.status ≤ 199 ∨ r.status = 204 ∨ r.status = 304
      · exact .inl ⟨hb, by simp [replyFraming, hb]⟩
      · refine .inr ⟨hb, ?_⟩
        simp only [replyFraming, if_neg hb]
        exact .length (Http.decimal_decNum _)
    | chunks r ps => exact .inr ⟨(h.chunks r ps rfl).2.1, .coding⟩
  · cases a with
    | whole r data =>
      by_cases hb : (r.status ≤ 199 ∨ r.status = 204 ∨ r.status = 304) ∨ head = true
      · exact .inl ⟨hb, by simp only [answeredOf, replyBody, if_pos hb]⟩
      · exact .inr ⟨hb, by simp only [answeredOf, replyBody, if_neg hb]; rfl⟩
    | chunks r ps =>
      have := h.chunks r ps rfl
      exact .inr ⟨(by rintro (hb | hb); exact this.2.1 hb; rw [this.1] at hb; cases hb), rfl⟩
  · rw [← h.persists.close]
    simp [answeredOf]

end

end Verif.HttpExchange
