import Verif.Proofs.WsHandshake
import Verif.Props.HttpValue
/-! # WebSocket handshakes (C13, C61) -/
namespace Verif.Props
open Verif.Spec Verif.Ws Verif.Http

/-- Within what zlib and RFC 7692 allow. -/
def LegalPmce (p : Parser) : Prop :=
  9 ≤ p.pmce_send_window_bits ∧ p.pmce_send_window_bits ≤ 15 ∧ 9 ≤ p.pmce_receive_window_bits ∧ p.pmce_receive_window_bits ≤ 15 ∧
  3 ≤ p.pmce_compression_level ∧ p.pmce_compression_level ≤ 9

/-- Compression settings are those of the other parser. -/
def SamePmce (p p' : Parser) : Prop :=
  p'.pmce_compression_level_m2 = p.pmce_compression_level_m2 ∧ p'.pmce_send_window_bits = p.pmce_send_window_bits ∧
  p'.pmce_receive_window_bits = p.pmce_receive_window_bits ∧ p'.pmce_send_no_context_takeover = p.pmce_send_no_context_takeover

/-- C13, server: whatever the request headers and the library are, either an extension is answered and the settings are legal, or none is
and the settings are left alone. -/
theorem C13_server (L : Lib) (p p' : Parser) (headers : List (Bytes × Bytes)) (ext : Option Bytes)
    (h : accept_handshake_request L p headers = some (p', ext)) :
    (ext ≠ none ∧ LegalPmce p') ∨ (ext = none ∧ SamePmce p p') := by
  unfold accept_handshake_request at h
  split at h
  · simp at h
  · dsimp only at h
    split at h
    · simp only [Option.some.injEq, Prod.mk.injEq] at h
      obtain ⟨rfl, rfl⟩ := h
      exact .inr ⟨rfl, rfl, rfl, rfl, rfl⟩
    · rename_i st hst
      have ok := hs_headers_ok L false _ headers {} st (pmd_default 0) hst
      split at h
      · simp only [Option.some.injEq, Prod.mk.injEq] at h
        obtain ⟨rfl, rfl⟩ := h
        exact .inr ⟨rfl, rfl, rfl, rfl, rfl⟩
      · simp only [Option.some.injEq, Prod.mk.injEq] at h
        obtain ⟨rfl, rfl⟩ := h
        split
        · refine .inl ⟨by simp, ?_⟩
          obtain ⟨h1, h2, h3, h4⟩ := ok
          have hl := level_range st.pmce.compression_level
          refine ⟨?_, ?_, ?_, ?_, ?_, ?_⟩ <;> simp only [Parser.pmce_compression_level, bits15_range h1 h2, bits15_range h3 h4] <;> omega
        · exact .inr ⟨rfl, rfl, rfl, rfl, rfl⟩

/-- C13, client. -/
theorem C13_client (L : Lib) (accept : Bytes) (p p' : Parser) (headers : List (Bytes × Bytes))
    (h : accept_handshake_response L accept p headers = some p') : LegalPmce p' ∨ SamePmce p p' := by
  unfold accept_handshake_response at h
  split at h
  · simp at h
  · dsimp only at h
    split at h
    · simp only [Option.some.injEq] at h
      subst h
      exact .inr ⟨rfl, rfl, rfl, rfl⟩
    · rename_i st hst
      have ok := hs_headers_ok L true _ headers {} st (pmd_default 0) hst
      split at h
      · simp only [Option.some.injEq] at h
        subst h
        exact .inr ⟨rfl, rfl, rfl, rfl⟩
      · split at h
        · simp only [Option.some.injEq] at h
          subst h
          exact .inr ⟨rfl, rfl, rfl, rfl⟩
        · simp only [Option.some.injEq] at h
          subst h
          split
          · refine .inl ?_
            obtain ⟨h1, h2, h3, h4⟩ := ok
            have hl := level_range st.pmce.compression_level
            refine ⟨?_, ?_, ?_, ?_, ?_, ?_⟩ <;> simp only [Parser.pmce_compression_level, bits15_range h1 h2, bits15_range h3 h4] <;> omega
          · exact .inr ⟨rfl, rfl, rfl, rfl⟩

def demoKey : Bytes := b! "dGhlIHNhbXBsZSBub25jZQ=="
def demoAccept : Bytes := b! "s3pPLMBiTxaQ9kYGzzhZRbK+xOo="

/-- A request with both window sizes. -/
def demoRequest (ext : Bytes) : List (Bytes × Bytes) :=
  [(b! "Connection", b! "Upgrade"), (b! "Upgrade", b! "websocket"), (b! "Sec-WebSocket-Version", b! "13"), (b! "Sec-WebSocket-Key", demoKey),
   (b! "Sec-WebSocket-Extensions", ext)]

example : (accept_handshake_request plainLib {} (demoRequest (b! "permessage-deflate; server_max_window_bits=10; client_max_window_bits=12"))).map
    (fun r => (r.1.pmce_send_window_bits, r.1.pmce_receive_window_bits, r.1.pmce_compression_level, r.2)) =
    some (10, 12, 6, some (b! "permessage-deflate; server_max_window_bits=10; client_max_window_bits=12")) := by decide +kernel

example : (accept_handshake_request plainLib {} (demoRequest (b! "permessage-deflate; server_max_window_bits=8"))).map
    (fun r => (r.1.pmce_compression_level_m2, r.2)) = some (0, none) := by decide +kernel

/-- The plain library satisfies what `C61` asks for. -/
theorem plainLib_windows : WindowTexts plainLib := by
  intro n h1 h2
  refine ⟨rfl, ?_, fun rest _ r e => nomatch e⟩
  exact (by decide +kernel : ∀ n ≤ 15, plainLib.parse_I (decimal n) = some (n : Int)) n h2

/-- C61: a server that accepted a request — any request — sends a response; a client that is configured to compress and expects
that key accepts it, and then both ends use the same windows in each direction, or both use no compression.
`_partial`: the client's compression level must not be configured as zero, see `C61_violated`. -/
theorem C61_agree_partial (L : Lib) (hL : WindowTexts L) (s s' c : Parser) (headers : List (Bytes × Bytes)) (ext : Option Bytes) (date accept : Bytes)
    (hs : accept_handshake_request L s headers = some (s', ext)) (hok : s'.wshs = .s_accepted)
    (hc : c.wshs = .c_req_sent) (hlv : 0 < c.default_compression_level ∧ c.default_compression_level ≤ 9)
    (ha : accept.length = 28) (ha0 : accept.headD 0 ≠ 0) :
    ∃ c', accept_handshake_response L accept c (handshake_response date accept ext) = some c' ∧ c'.wshs = .c_accepted ∧ c'.error = false ∧
      (match ext with
        | none => SamePmce s s' ∧ SamePmce c c'
        | some _ => s'.pmce_compression_level_m2 ≠ 0 ∧ c'.pmce_compression_level_m2 ≠ 0 ∧
            c'.pmce_receive_window_bits = s'.pmce_send_window_bits ∧ c'.pmce_send_window_bits = s'.pmce_receive_window_bits) := by
  have hS := C13_server L s s' headers ext hs
  unfold accept_handshake_response
  rw [if_neg (by rw [hc]; simp)]
  dsimp only
  rw [response_headers L _ date accept ha ext]
  cases ext with
  | none =>
    dsimp only
    rw [if_neg (by simp; simpa using ha0), if_neg (by simp)]
    refine ⟨_, rfl, rfl, rfl, ?_, rfl, rfl, rfl, rfl⟩
    rcases hS with ⟨h, -⟩ | ⟨-, h⟩
    · exact absurd rfl h
    · exact h
  | some e =>
    have hSL : LegalPmce s' := by
      rcases hS with ⟨-, h⟩ | ⟨h, -⟩
      · exact h
      · exact nomatch h
    unfold accept_handshake_request at hs
    split at hs
    · simp at hs
    · dsimp only at hs
      split at hs
      · simp at hs
      · rename_i st hst
        have ok := hs_headers_ok L false _ headers {} st (pmd_default 0) hst
        split at hs
        · simp at hs
        · simp only [Option.some.injEq, Prod.mk.injEq] at hs
          obtain ⟨hs', he⟩ := hs
          split at he
          · rename_i hlev
            rw [if_pos hlev] at hs'
            simp only [Option.some.injEq] at he
            subst he
            have hx := answer_extensions hL st.pmce ok c.default_compression_level (by omega)
            have hfail : (c.fail "handshake response invalid").default_compression_level = c.default_compression_level := rfl
            dsimp only
            rw [hfail]
            simp only [hx]
            rw [if_neg (by simp; simpa using ha0), if_neg (by simp), if_pos (show c.default_compression_level % 256 ≠ 0 by omega)]
            refine ⟨_, rfl, rfl, rfl, ?_, ?_, ?_, ?_⟩
            · have := hSL.2.2.2.2.1
              unfold Parser.pmce_compression_level at this
              omega
            · have := level_range (c.default_compression_level % 256)
              dsimp only
              omega
            · rw [← hs']
            · rw [← hs']
          · exact nomatch he

example : (accept_handshake_response plainLib demoAccept { wshs := .c_req_sent }
    (handshake_response [] demoAccept (some (b! "permessage-deflate; server_max_window_bits=10; client_max_window_bits=12")))).map
    (fun c => (c.pmce_receive_window_bits, c.pmce_send_window_bits, c.wshs)) = some (10, 12, .c_accepted) := by decide +kernel

/-- C61, the other half: what `create_handshake_request` sends is accepted by a server that is configured to compress, with compression
enabled and full windows. -/
theorem C61_request (L : Lib) (s : Parser) (hs : s.wshs = .pending) (hlv : 0 < s.default_compression_level ∧ s.default_compression_level ≤ 9)
    (key : Bytes) (hk : key.length = 24) (hk0 : key.headD 0 ≠ 0) :
    ∃ s', accept_handshake_request L s (handshake_request key) = some (s', some (b! "permessage-deflate")) ∧ s'.wshs = .s_accepted ∧
      s'.error = false ∧ s'.pmce_send_window_bits = 15 ∧ s'.pmce_receive_window_bits = 15 ∧ s'.pmce_compression_level_m2 ≠ 0 := by
  unfold accept_handshake_request
  rw [if_neg (by rw [hs]; simp)]
  have hfail : (s.fail "handshake request invalid").default_compression_level = s.default_compression_level := rfl
  dsimp only
  rw [hfail, request_headers L _ (by omega) key hk]
  dsimp only
  rw [if_neg (by simp; simpa using hk0), if_pos (show s.default_compression_level % 256 ≠ 0 by omega), if_pos (show s.default_compression_level % 256 ≠ 0 by omega)]
  refine ⟨_, rfl, rfl, rfl, rfl, rfl, ?_⟩
  have := level_range (s.default_compression_level % 256)
  dsimp only
  omega

example : demoKey.length = 24 ∧ demoKey.headD 0 ≠ 0 ∧ demoAccept.length = 28 ∧ demoAccept.headD 0 ≠ 0 := by decide

/-- The full claim fails: a client whose compression level is configured as zero still offers the extension; the server then
compresses, and the client does not expect compressed frames. -/
theorem C61_violated : ∃ (L : Lib) (s' c' : Parser) (ext : Option Bytes),
    accept_handshake_request L {} (handshake_request demoKey) = some (s', ext) ∧
    accept_handshake_response L demoAccept { wshs := .c_req_sent, default_compression_level := 0 } (handshake_response [] demoAccept ext) = some c' ∧
    s'.wshs = .s_accepted ∧ c'.wshs = .c_accepted ∧ s'.pmce_compression_level_m2 ≠ 0 ∧ c'.pmce_compression_level_m2 = 0 :=
  ⟨plainLib, _, _, _, rfl, rfl, rfl, rfl, by decide, rfl⟩

end Verif.Props
