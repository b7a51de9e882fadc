import Verif.Spec.EasyConnect
import Verif.Proofs.NetRef
import Verif.Proofs.HttpMessage
/-! # Proofs about the addresses of easy clients -/
namespace Verif.EasyConnect
open Verif.Spec Verif.Uri

theorem head_opt (delim : Byte) (o : Option Bytes) (rest : Bytes) (hr : rest.head? ≠ some delim) :
    ((optText [delim] o ++ rest).head? == some delim) = o.isSome := by
  cases o with
  | none => simpa [optText] using hr
  | some t => simp [optText]

theorem present_text (p : RefParts) (hv : p.Valid) : present p.text = { path := p.path.isSome, query := p.query.isSome, fragment := p.fragment.isSome } := by
  have hf : ∀ c, (optText (b! "#") p.fragment ++ []).head? = some c → c = chr '#' := by
    intro c hc
    rcases head_optText hc with h | h
    · exact h
    · simp at h
  have hq : ∀ c, (optText (b! "?") p.query ++ (optText (b! "#") p.fragment ++ [])).head? = some c → c = chr '?' ∨ c = chr '#' := fun c hc => (head_optText hc).imp_right (hf c)
  have ha : ∀ c, (optText [] p.path ++ (optText (b! "?") p.query ++ (optText (b! "#") p.fragment ++ []))).head? = some c → c = chr '/' ∨ c = chr '?' ∨ c = chr '#' := by
    intro c hc
    cases hp : p.path with
    | none => rw [hp] at hc; exact Or.inr (hq c hc)
    | some t =>
      obtain ⟨⟨t', rfl⟩, _⟩ := hv.path_chars t hp
      rw [hp] at hc
      left
      simp only [optText, List.nil_append, List.cons_append, List.head?_cons, Option.some.injEq] at hc
      exact hc.symm
  have hport : ∀ c, (optText (b! ":") (p.port.map Prod.fst) ++ (optText [] p.path ++ (optText (b! "?") p.query ++ (optText (b! "#") p.fragment ++ [])))).head? = some c →
      c = chr ':' ∨ c = chr '/' ∨ c = chr '?' ∨ c = chr '#' := fun c hc => (head_optText hc).imp_right (ha c)
  have e : p.text = (if p.bracketed then b! "[" ++ p.host ++ b! "]" else p.host) ++
      (optText (b! ":") (p.port.map Prod.fst) ++ (optText [] p.path ++ (optText (b! "?") p.query ++ (optText (b! "#") p.fragment ++ [])))) := by
    simp only [RefParts.text, List.append_assoc, List.append_nil]
  have e1 := parse_host_complete {} p.bracketed p.host _ hv.host_nonempty hv.host_chars (fun c hc => by rcases hport c hc with rfl | rfl | rfl | rfl <;> decide)
  have e2 := parse_port_complete { ({} : NetworkReference) with host := p.host, is_ipv6 := p.bracketed || ({} : NetworkReference).is_ipv6 } p.port _ hv.port_num
    (fun c hc => by rcases ha c hc with rfl | rfl | rfl <;> exact ⟨by decide, by decide⟩)
  unfold present
  rw [e, e1]
  simp only [e2]
  rw [parse_path_complete _ p.path _ hv.path_chars (fun c hc => by rcases hq c hc with rfl | rfl <;> decide)]
  simp only
  rw [parse_query_complete _ p.query _ hv.query_chars (fun c hc => by rw [hf c hc]; decide)]
  simp only
  have k1 : ((optText (b! "#") p.fragment ++ []).head? == some (chr '#')) = p.fragment.isSome := head_opt _ _ _ (by simp)
  have k2 : ((optText (b! "?") p.query ++ (optText (b! "#") p.fragment ++ [])).head? == some (chr '?')) = p.query.isSome := head_opt _ _ _ (fun h => by have := hf _ h; revert this; decide)
  have k3 : ((optText [] p.path ++ (optText (b! "?") p.query ++ (optText (b! "#") p.fragment ++ []))).head? == some (chr '/')) = p.path.isSome := by
    cases hp : p.path with
    | none =>
      have : (optText (b! "?") p.query ++ (optText (b! "#") p.fragment ++ [])).head? ≠ some (chr '/') := by
        intro h
        rcases hq _ h with h | h <;> revert h <;> decide
      simpa [optText] using this
    | some t =>
      obtain ⟨⟨t', rfl⟩, _⟩ := hv.path_chars t hp
      simp [optText]
      decide
  rw [k1, k2, k3]

theorem parse_text (p : RefParts) (hv : p.Valid) : parse_network_reference {} p.text = (store {} p, p.text.length) := by
  have := parse_complete {} p hv [] (by intro c h; simp at h)
  simpa using this

theorem decNum_ne (n : Nat) : Http.decimal n ≠ [] := by
  unfold Http.decimal
  cases n with
  | zero => simp [Http.digits]
  | succ n => unfold Http.digits; split <;> simp

theorem host_text_spec (host : Bytes) (port : Nat) : HostText host port (host_text host port) := ⟨_, decNum_ne port, Http.decimal_decNum port, rfl⟩

theorem host_text_oneLine (host : Bytes) (port : Nat) (hhost : ∀ c ∈ host, c ∈ hostChars) : OneLine (host_text host port) := by
  rw [host_text]
  have e1 : ∀ c ∈ hostChars, c ≠ 13 ∧ c ≠ 10 := by decide +kernel
  have e2 := Http.decNum_oneLine (Http.decimal_decNum port)
  have e3 : (13 : Byte) ∉ b! ":" ∧ (10 : Byte) ∉ b! ":" := by decide
  constructor
  · simp only [List.mem_append, not_or]
    exact ⟨⟨fun hm => (e1 _ (hhost _ hm)).1 rfl, e3.1⟩, e2.1⟩
  · simp only [List.mem_append, not_or]
    exact ⟨⟨fun hm => (e1 _ (hhost _ hm)).2 rfl, e3.2⟩, e2.2⟩

/-- the parts of `host:port` -/
def hostParts (host : Bytes) (port : Nat) : RefParts := ⟨false, host, some (Http.decimal port, port), none, none, none⟩

theorem hostParts_text (host : Bytes) (port : Nat) : (hostParts host port).text = host_text host port := by
  simp [hostParts, RefParts.text, host_text, optText]

theorem hostParts_valid (host : Bytes) (port : Nat) (hne : host ≠ []) (hh : ∀ c ∈ host, c ∈ hostChars) (hp : port ≤ 65535) : (hostParts host port).Valid where
  host_nonempty := hne
  host_chars := by simpa [hostParts] using hh
  port_num := by
    intro t n h
    simp only [hostParts, Option.some.injEq, Prod.mk.injEq] at h
    obtain ⟨rfl, rfl⟩ := h
    exact ⟨decNum_ne _, Http.decimal_decNum _, hp⟩
  path_chars := by simp [hostParts]
  query_chars := by simp [hostParts]
  fragment_chars := by simp [hostParts]

theorem session_name_host (host : Bytes) (port : Nat) (hne : host ≠ []) (hh : ∀ c ∈ host, c ∈ hostChars) (hp : port ≤ 65535) :
    session_name (host_text host port) = if host.length ≤ 253 then some host else none := by
  unfold session_name
  rw [← hostParts_text, parse_text _ (hostParts_valid host port hne hh hp)]
  have h1 : (hostParts host port).text.length ≠ 0 := by
    rw [hostParts_text, host_text]; simp
  have h2 : 1 ≤ host.length := by cases host with | nil => exact absurd rfl hne | cons a t => simp
  have h3 : (hostParts host port).host = host := rfl
  by_cases h : host.length ≤ 253
  · simp [store, h1, h2, h3, h]
  · simp [store, h3, h]

/-- a text that does not begin with a bracket is never read as a host with a colon -/
theorem session_name_sub (s n : Bytes) (hb : s.head? ≠ some (chr '[')) (h : session_name s = some n) : ∀ c ∈ n, c ∈ hostChars := by
  unfold session_name at h
  simp only at h
  split at h
  · rename_i hc
    simp only [Option.some.injEq] at h
    obtain ⟨p, hv, ht, hl, hst⟩ := parse_sound {} s hc.1
    rw [hst] at h
    simp only [store] at h
    subst h
    have hbr : p.bracketed = false := by
      cases hbr : p.bracketed with
      | false => rfl
      | true =>
        exfalso
        simp only [RefParts.text, hbr, if_true] at ht
        generalize hk : (parse_network_reference {} s).2 = k at ht hc
        cases s with
        | nil => simp at ht
        | cons a t =>
          cases k with
          | zero => exact hc.1 rfl
          | succ k =>
            simp only [List.take_succ_cons, List.cons_append, List.cons.injEq] at ht
            rw [ht.1] at hb
            exact hb rfl
    have := hv.host_chars
    rw [hbr] at this
    simpa using this
  · simp at h

end Verif.EasyConnect
