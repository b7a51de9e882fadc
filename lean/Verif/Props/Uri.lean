import Verif.Proofs.Uri
import Verif.Proofs.NetRef
/-!
# C18, C19, C20: URI paths and network references
-/
namespace Verif.Props
open Verif Verif.Spec Verif.Uri

/-! ## C19 -/

/-- C19: if every escape of the input is well-formed, the result is the canonical form of the decoded path. -/
theorem C19_canonical (path decoded : Bytes) (h : PercentDecodes path decoded) :
    decode_and_canonicalize_uri_path path = canonicalPath decoded := by
  rw [decode_good h, finish_machine]

/-- C19: … so it is `/dir1/dir2/…/` followed by a file name or nothing, where no directory and no file name is empty,
`.`, `..` or contains a slash. -/
theorem C19_no_dots (path decoded : Bytes) (h : PercentDecodes path decoded) :
    ∃ dirs file, decode_and_canonicalize_uri_path path = dirText dirs ++ file ∧ (∀ d ∈ dirs, PlainSegment d) ∧
      (file = [] ∨ PlainSegment file) := by
  rw [decode_good h]
  have hok := ok_foldl decoded ([], []) ⟨by simp, by simp⟩
  generalize decoded.foldl stStep ([], []) = st at hok
  unfold finish
  split
  · rename_i hcond
    refine ⟨enter st.1 st.2, [], by simp, ?_, Or.inl rfl⟩
    have := (ok_step st hok (chr '/')).dirs
    simpa [stStep] using this
  · rename_i hcond
    simp only [not_or] at hcond
    exact ⟨st.1, st.2, rfl, hok.dirs, Or.inr ⟨hcond.1, hcond.2.1, hcond.2.2, hok.cur⟩⟩

/-- C19: when the first malformed escape is reached, decoding stops; what precedes it has been canonicalized except for
its last segment, which is left as it is. -/
theorem C19_malformed_partial (good bad decoded : Bytes) (h : PercentDecodes good decoded) (hb : BadEscape bad) :
    ∃ dirs file, decode_and_canonicalize_uri_path (good ++ bad) = dirText dirs ++ file ∧ (∀ d ∈ dirs, PlainSegment d) ∧
      chr '/' ∉ file ∧ dirs = (splitSlash decoded).dropLast.foldl enter [] ∧ (splitSlash decoded).getLast? = some file := by
  rw [decode_malformed h hb]
  have hok := ok_foldl decoded ([], []) ⟨by simp, by simp⟩
  refine ⟨_, _, rfl, hok.dirs, hok.cur, ?_⟩
  obtain ⟨p, ps, h1, h2⟩ := machine_split decoded [] []
  rw [h2, h1]
  exact ⟨rfl, List.getLast?_eq_some_getLast (by simp)⟩

/-- C19: the result is absolute for every input, and stays below the root in any case: only the last segment can be
special. -/
theorem C19_absolute (path : Bytes) :
    ∃ dirs file, decode_and_canonicalize_uri_path path = dirText dirs ++ file ∧ (∀ d ∈ dirs, PlainSegment d) ∧ chr '/' ∉ file := by
  rcases decode_cases path with ⟨d, hd⟩ | ⟨s1, s2, d, rfl, h1, h2⟩
  · obtain ⟨dirs, file, h1, h2, h3⟩ := C19_no_dots path d hd
    refine ⟨dirs, file, h1, h2, ?_⟩
    rcases h3 with rfl | h3
    · simp
    · exact h3.2.2.2
  · obtain ⟨dirs, file, h1, h2, h3, _⟩ := C19_malformed_partial s1 s2 d h1 h2
    exact ⟨dirs, file, h1, h2, h3⟩

/-- C19, violation: a malformed escape leaves a trailing `..`. -/
theorem C19_trailing_dots_survive :
    decode_and_canonicalize_uri_path (b! "/a/..%") = b! "/a/.." ∧
    decode_and_canonicalize_uri_path (b! "..%zz") = b! "/.." := by
  decide +kernel

example : PercentDecodes (b! "/%2e%2E/x") (b! "/../x") :=
  .plain (by decide) (.escape (a := 0x32) (b := 0x65) (.dec 2 (by omega)) (.lower 14 (by omega) (by omega))
    (.escape (a := 0x32) (b := 0x45) (.dec 2 (by omega)) (.upper 14 (by omega) (by omega))
      (.plain (by decide) (.plain (by decide) .nil))))
example : decode_and_canonicalize_uri_path (b! "/a/./b//%2e%2E/../../../etc/p%61sswd") = b! "/etc/passwd" := by decide +kernel
example : decode_and_canonicalize_uri_path (b! "x/y/..") = b! "/x/" := by decide +kernel
example : BadEscape (b! "%4") := ⟨b! "4", rfl, by rintro ⟨_, _, _, _, _, h, _⟩; simp at h⟩

/-! ## C18 -/

/-- C18: decoding an encoded path gives its canonical form, whatever bytes the path has. -/
theorem C18_encode_decode (path : Bytes) : decode_and_canonicalize_uri_path (encode_path path) = canonicalPath path := by
  unfold encode_path
  have h := encode_decodes path
  simp only
  split
  · rename_i he
    rw [List.isEmpty_iff] at he
    rw [he] at h
    cases h
    decide
  · exact C19_canonical _ _ h

/-- C18: so an absolute path without empty and dot segments comes back unchanged. -/
theorem C18_roundtrip (dirs : List Bytes) (file : Bytes) (hd : ∀ d ∈ dirs, PlainSegment d) (hf : file = [] ∨ PlainSegment file) :
    decode_and_canonicalize_uri_path (encode_path (dirText dirs ++ file)) = dirText dirs ++ file := by
  rw [C18_encode_decode]
  have split_seg : ∀ (s rest : Bytes), chr '/' ∉ s → splitSlash (s ++ chr '/' :: rest) = s :: splitSlash rest := by
    intro s rest hs
    induction s with
    | nil => simp [splitSlash]
    | cons a t ih =>
      simp only [List.mem_cons, not_or] at hs
      simp [splitSlash, Ne.symm hs.1, ih hs.2]
  have split_end : ∀ s : Bytes, chr '/' ∉ s → splitSlash s = [s] := by
    intro s hs
    induction s with
    | nil => rfl
    | cons a t ih =>
      simp only [List.mem_cons, not_or] at hs
      simp [splitSlash, Ne.symm hs.1, ih hs.2]
  have hfile : splitSlash file = [file] := by
    apply split_end
    rcases hf with rfl | h
    · simp
    · exact h.2.2.2
  have hsplit : splitSlash (dirText dirs ++ file) = ([] :: dirs) ++ [file] := by
    have : ∀ ds : List Bytes, (∀ d ∈ ds, PlainSegment d) →
        splitSlash (ds.flatMap (fun s => s ++ [chr '/']) ++ file) = ds ++ [file] := by
      intro ds h
      induction ds with
      | nil => simpa using hfile
      | cons s t ih =>
        have e : (s :: t).flatMap (fun s => s ++ [chr '/']) ++ file
          = s ++ chr '/' :: (t.flatMap (fun s => s ++ [chr '/']) ++ file) := by simp
        rw [e, split_seg _ _ (h s (by simp)).2.2.2, ih (fun d hd => h d (by simp [hd]))]
        rfl
    unfold dirText
    rw [List.cons_append]
    simp [splitSlash, this dirs hd]
  have hfold : ∀ (ds acc : List Bytes), (∀ d ∈ ds, PlainSegment d) → ds.foldl enter acc = acc ++ ds := by
    intro ds
    induction ds with
    | nil => simp
    | cons s t ih =>
      intro acc h
      have hs := h s (by simp)
      have : enter acc s = acc ++ [s] := by
        unfold enter
        rw [if_neg (by simp [hs.1, hs.2.1]), if_neg hs.2.2.1]
      rw [List.foldl_cons, this, ih _ (fun d hd => h d (by simp [hd]))]
      simp
  unfold canonicalPath
  simp only
  rw [hsplit, List.dropLast_concat, List.getLast?_append]
  have e0 : enter [] [] = ([] : List Bytes) := by simp [enter]
  rw [List.foldl_cons, e0, hfold dirs [] hd]
  simp only [List.nil_append, List.getLast?_singleton, Option.some_or]
  rcases hf with rfl | h
  · simp [enter]
  · rw [if_neg (by simp [h.1, h.2.1, h.2.2.1])]

example : PlainSegment (b! "a b%/".dropLast) ∧ PlainSegment [0, 255] := by
  refine ⟨⟨?_, ?_, ?_, ?_⟩, ⟨?_, ?_, ?_, ?_⟩⟩ <;> decide
example : encode_path (b! "/a b%/é") = b! "/a%20b%25/%C3%A9" := by decide +kernel

/-! ## C20 -/

/-- C20: when `n > 0` characters are consumed, they are the text of a valid reference, and the result holds exactly its
parts (parts that are absent are left as they were). -/
theorem C20_parts (r : NetworkReference) (s : Bytes) (h : (parse_network_reference r s).2 ≠ 0) :
    ∃ p : RefParts, p.Valid ∧ s.take (parse_network_reference r s).2 = p.text ∧ (parse_network_reference r s).2 ≤ s.length ∧
      let r' := (parse_network_reference r s).1
      r'.host = p.host ∧ r'.is_ipv6 = (p.bracketed || r.is_ipv6) ∧
      r'.port = (p.port.map Prod.fst).getD r.port ∧ r'.port_num = (p.port.map Prod.snd).getD r.port_num ∧
      r'.path = p.path.getD r.path ∧ r'.query = p.query.getD r.query ∧ r'.fragment = p.fragment.getD r.fragment := by
  obtain ⟨p, h1, h2, h3, h4⟩ := parse_sound r s h
  refine ⟨p, h1, h2, h3, ?_⟩
  rw [h4]
  simp [store]

/-- C20: conversely every valid reference, alone or followed by a character that cannot continue it, is taken apart into
exactly its parts. -/
theorem C20_complete (r : NetworkReference) (p : RefParts) (hv : p.Valid) (rest : Bytes)
    (hr : ∀ c, rest.head? = some c → c ∉ fragmentChars) :
    (parse_network_reference r (p.text ++ rest)).2 = p.text.length ∧
      let r' := (parse_network_reference r (p.text ++ rest)).1
      r'.host = p.host ∧ r'.is_ipv6 = (p.bracketed || r.is_ipv6) ∧
      r'.port = (p.port.map Prod.fst).getD r.port ∧ r'.port_num = (p.port.map Prod.snd).getD r.port_num ∧
      r'.path = p.path.getD r.path ∧ r'.query = p.query.getD r.query ∧ r'.fragment = p.fragment.getD r.fragment := by
  rw [parse_complete r p hv rest hr]
  simp [store]

/-- C20: a rejected text leaves port, path, query and fragment alone (but not the host, see `C20_failure_changes_host`). -/
theorem C20_reject (r : NetworkReference) (s : Bytes) (h : (parse_network_reference r s).2 = 0) :
    let r' := (parse_network_reference r s).1
    r'.port = r.port ∧ r'.port_num = r.port_num ∧ r'.path = r.path ∧ r'.query = r.query ∧ r'.fragment = r.fragment := by
  by_cases hs : s = []
  · subst hs; simp [parse_network_reference, parse_host]
  unfold parse_network_reference at h ⊢
  cases h1 : parse_host r s with
  | none => simp
  | some rs =>
    obtain ⟨r1, s1⟩ := rs
    simp only [h1] at h ⊢
    obtain ⟨b, host, hh1, hh2, hs1, rfl⟩ := parse_host_sound h1
    cases h2 : parse_port { r with host := host, is_ipv6 := b || r.is_ipv6 } s1 with
    | none => simp
    | some rs2 =>
      exfalso
      obtain ⟨r2, s2⟩ := rs2
      simp only [h2] at h
      obtain ⟨port, _, hs2, _⟩ := parse_port_sound h2
      obtain ⟨path, _, ha2, _⟩ := parse_path_sound r2 s2
      generalize hs3 : parse_path r2 s2 = s3 at *
      obtain ⟨query, _, hq2, _⟩ := parse_query_sound s3.1 s3.2
      generalize hs4 : parse_query s3.1 s3.2 = s4 at *
      obtain ⟨fragment, _, hf2, _⟩ := parse_fragment_sound s4.1 s4.2
      generalize hs5 : parse_fragment s4.1 s4.2 = s5 at *
      have hlen : 0 < host.length := by
        rcases Nat.eq_zero_or_pos host.length with h0 | h0
        · exact absurd (List.length_eq_zero_iff.mp h0) hh1
        · exact h0
      have l1 := congrArg List.length hs1
      have l2 := congrArg List.length hs2
      have l3 := congrArg List.length ha2
      have l4 := congrArg List.length hq2
      have l5 := congrArg List.length hf2
      simp only [List.length_append] at l1 l2 l3 l4 l5
      have l0 : host.length ≤ (if b = true then b! "[" ++ host ++ b! "]" else host).length := by
        split
        · simp only [List.length_append]; omega
        · exact Nat.le_refl _
      omega

/-- C20: a text that is rejected may still have changed the host. -/
theorem C20_failure_changes_host :
    parse_network_reference {} (b! "[::1]:99999") = ({ host := b! "::1", is_ipv6 := true }, 0) := by decide +kernel

example : parse_network_reference {} (b! "[::1]:8080/a/b?c=d#e f")
    = ({ host := b! "::1", is_ipv6 := true, port := b! "8080", port_num := 8080, path := b! "/a/b", query := b! "c=d",
         fragment := b! "e" }, 20) := by decide +kernel

/-- The parts of `host:80/p?q`, a valid reference. -/
example : RefParts.Valid ⟨false, b! "host", some (b! "80", 80), some (b! "/p"), some (b! "q"), none⟩ where
  host_nonempty := by simp
  host_chars := by decide
  port_num := by
    intro t n h
    simp only [Option.some.injEq, Prod.mk.injEq] at h
    obtain ⟨rfl, rfl⟩ := h
    exact ⟨by simp, .snoc (ds := [0x38]) 0 (.snoc (ds := []) 8 .nil (by omega)) (by omega), by omega⟩
  path_chars := by
    intro t h
    simp only [Option.some.injEq] at h
    subst h
    exact ⟨⟨b! "p", rfl⟩, by decide⟩
  query_chars := by
    intro t h
    simp only [Option.some.injEq] at h
    subst h
    decide
  fragment_chars := by simp

end Verif.Props
