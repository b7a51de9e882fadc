import Verif.Proofs.HeaderFuel
import Verif.Model.WsHandshake
/-! # Handshake lemmas -/
namespace Verif.Ws
open Verif.Spec Verif.Http

/-- Both window sizes are in range. -/
def PmdOk (p : Pmd) : Prop :=
  9 ≤ p.server_max_window_bits ∧ p.server_max_window_bits ≤ 15 ∧ 9 ≤ p.client_max_window_bits ∧ p.client_max_window_bits ≤ 15

theorem pmd_default (n : Nat) : PmdOk { compression_level := n } := by simp [PmdOk]

theorem pmd_params_ok {L : Lib} (level : Nat) (fuel : Nat) : ∀ (q : HeaderParser L) (p : Pmd), PmdOk p → PmdOk (pmd_params level fuel q p).2 := by
  induction fuel with
  | zero => intro q p h; exact h
  | succ fuel ih =>
    intro q p h
    unfold pmd_params
    split
    · exact h
    · rename_i q' e
      split
      · split
        · exact h
        · exact ih _ _ h
      · split
        · split
          · exact h
          · exact ih _ _ h
        · split
          · split
            · exact ih _ _ h
            · dsimp only
              split
              · exact h
              · exact ih _ _ ⟨by dsimp only; omega, by dsimp only; omega, h.2.2⟩
          · split
            · split
              · exact ih _ _ h
              · dsimp only
                split
                · exact h
                · exact ih _ _ ⟨h.1, h.2.1, by dsimp only; omega, by dsimp only; omega⟩
            · exact h

theorem use_ok {L : Lib} (q : HeaderParser L) (level : Nat) (p : Pmd) (h : PmdOk p) : PmdOk (use_permessage_deflate q level p).2 := by
  unfold use_permessage_deflate
  split
  · exact h
  · split
    · exact h
    · exact pmd_params_ok _ _ _ _ (pmd_default _)

theorem extensions_ok {L : Lib} (strict : Bool) (level fuel : Nat) : ∀ (q : HeaderParser L) (p p' : Pmd), PmdOk p →
    extensions strict level fuel q p = some p' → PmdOk p' := by
  induction fuel with
  | zero => intro q p p' h e; simp only [extensions, Option.some.injEq] at e; rw [← e]; exact h
  | succ fuel ih =>
    intro q p p' h e
    unfold extensions at e
    split at e
    · simp only [Option.some.injEq] at e; rw [← e]; exact h
    · split at e
      · exact ih _ _ _ (use_ok _ _ _ h) e
      · split at e
        · simp at e
        · exact ih _ _ _ h e

theorem hs_headers_ok (L : Lib) (strict : Bool) (level : Nat) (hs : List (Bytes × Bytes)) : ∀ (st st' : HsState), PmdOk st.pmce →
    hs_headers L strict level hs st = some st' → PmdOk st'.pmce := by
  induction hs with
  | nil => intro st st' h e; simp only [hs_headers, Option.some.injEq] at e; rw [← e]; exact h
  | cons x hs ih =>
    intro st st' h e
    unfold hs_headers at e
    split at e
    · split at e
      · simp at e
      · exact ih _ _ h e
    · split at e
      · exact ih _ _ (by split <;> exact h) e
      · split at e
        · exact ih _ _ (by split <;> exact h) e
        · split at e
          · exact ih _ _ (by split <;> exact h) e
          · split at e
            · exact ih _ _ (by split <;> exact h) e
            · split at e
              · split at e
                · simp at e
                · rename_i p' hp
                  exact ih { st with pmce := p' } _ (extensions_ok _ _ _ _ _ _ h hp) e
              · exact ih _ _ h e

theorem bits15_range {n : Int} (h1 : 9 ≤ n) (h2 : n ≤ 15) : bits15 n = n.toNat := by
  have : n.toNat ≤ 15 := by omega
  unfold bits15
  generalize n.toNat = k at this
  revert k; decide

theorem level_range (n : Nat) : 1 ≤ level_m2 n ∧ level_m2 n ≤ 7 := by
  unfold level_m2
  by_cases h1 : (n : Int) - 2 < 1
  · rw [if_pos h1]; decide
  · rw [if_neg h1]
    by_cases h2 : (n : Int) - 2 > 7
    · rw [if_pos h2]; decide
    · rw [if_neg h2]
      have h3 : 1 ≤ n - 2 := by omega
      have h4 : n - 2 ≤ 7 := by omega
      exact (by decide : ∀ k ≤ 7, 1 ≤ k → 1 ≤ k &&& 7 ∧ k &&& 7 ≤ 7) _ h4 h3

/-! ### What the client reads from the server's answer -/

/-- One parameter. -/
def apply_param {L : Lib} (x : Bytes × Value L) (p : Pmd) : Option Pmd :=
  if name_eq x.1 (b! "server_no_context_takeover") then
    if !x.2.is_null then none else some { p with server_no_context_takeover := true }
  else if name_eq x.1 (b! "client_no_context_takeover") then
    if !x.2.is_null then none else some { p with client_no_context_takeover := true }
  else if name_eq x.1 (b! "server_max_window_bits") then
    if x.2.is_null then some p
    else if x.2.as_integer < 9 ∨ x.2.as_integer > 15 then none else some { p with server_max_window_bits := x.2.as_integer }
  else if name_eq x.1 (b! "client_max_window_bits") then
    if x.2.is_null then some p
    else if x.2.as_integer < 9 ∨ x.2.as_integer > 15 then none else some { p with client_max_window_bits := x.2.as_integer }
  else none

def apply_params {L : Lib} : List (Bytes × Value L) → Pmd → Option Pmd
  | [], p => some p
  | x :: xs, p => match apply_param x p with
    | none => none
    | some p => apply_params xs p

/-- When all parameters are accepted, the loop has read all attributes. -/
theorem pmd_params_eq {L : Lib} (level : Nat) (fuel : Nat) : ∀ (q : HeaderParser L) (p p' : Pmd) (xs : List (Bytes × Value L)) (q' : HeaderParser L),
    xs.length < fuel → q.attributes fuel = (xs, q') → apply_params xs p = some p' →
    pmd_params level fuel q p = (q', { p' with compression_level := level }) := by
  induction fuel with
  | zero => intro q p p' xs q' h; omega
  | succ fuel ih =>
    intro q p p' xs q' hl ha hp
    unfold HeaderParser.attributes at ha
    unfold pmd_params
    split at ha
    · rename_i q1 e
      simp only [Prod.mk.injEq] at ha
      obtain ⟨rfl, rfl⟩ := ha
      simp only [apply_params, Option.some.injEq] at hp
      subst hp
      rw [e]
    · rename_i q1 e
      rw [e]
      split at ha
      rename_i as q2 e2
      simp only [Prod.mk.injEq] at ha
      obtain ⟨rfl, rfl⟩ := ha
      simp only [apply_params] at hp
      have hl' : as.length < fuel := by simp at hl; omega
      unfold apply_param at hp
      dsimp only at hp ⊢
      split
      · rename_i c1
        rw [if_pos c1] at hp
        split
        · rename_i c2; rw [if_pos c2] at hp; simp at hp
        · rename_i c2; rw [if_neg c2] at hp; exact ih _ _ _ _ _ hl' e2 hp
      · rename_i c1
        rw [if_neg c1] at hp
        split
        · rename_i c1
          rw [if_pos c1] at hp
          split
          · rename_i c2; rw [if_pos c2] at hp; simp at hp
          · rename_i c2; rw [if_neg c2] at hp; exact ih _ _ _ _ _ hl' e2 hp
        · rename_i c1
          rw [if_neg c1] at hp
          split
          · rename_i c1
            rw [if_pos c1] at hp
            split
            · rename_i c2; rw [if_pos c2] at hp; exact ih _ _ _ _ _ hl' e2 hp
            · rename_i c2
              rw [if_neg c2] at hp
              split
              · rename_i c3; rw [if_pos c3] at hp; simp at hp
              · rename_i c3; rw [if_neg c3] at hp; exact ih _ _ _ _ _ hl' e2 hp
          · rename_i c1
            rw [if_neg c1] at hp
            split
            · rename_i c1
              rw [if_pos c1] at hp
              split
              · rename_i c2; rw [if_pos c2] at hp; exact ih _ _ _ _ _ hl' e2 hp
              · rename_i c2
                rw [if_neg c2] at hp
                split
                · rename_i c3; rw [if_pos c3] at hp; simp at hp
                · rename_i c3; rw [if_neg c3] at hp; exact ih _ _ _ _ _ hl' e2 hp
            · rename_i c1; rw [if_neg c1] at hp; simp at hp

theorem attributes_length {L : Lib} (fuel : Nat) : ∀ (q : HeaderParser L), (q.attributes fuel).1.length ≤ q.left := by
  induction fuel with
  | zero => intro q; exact Nat.zero_le _
  | succ fuel ih =>
    intro q
    have h := next_attribute_left q
    unfold HeaderParser.attributes
    split
    · exact Nat.zero_le _
    · rename_i q' e
      rw [e] at h
      have h2 := h.2.2 rfl
      have h' := ih q'
      split
      rename_i as q'' e'
      rw [e'] at h'
      dsimp only at h' h2
      simp only [List.length_cons]
      omega

/-- A header with one `permessage-deflate` element whose parameters are all accepted. -/
theorem extensions_single {L : Lib} (strict : Bool) (level : Nat) (hl : level ≠ 0) (q q' : HeaderParser L) (x : Bytes × Value L)
    (xs : List (Bytes × Value L)) (p' : Pmd) (fuel : Nat) (ha : q.all (fuel + 2) = ([x :: xs], q'))
    (hx : name_eq x.1 (b! "permessage-deflate") = true) (hp : apply_params xs {} = some p') :
    extensions strict level (fuel + 2) q {} = some { p' with compression_level := level % 256 } := by
  unfold HeaderParser.all at ha
  unfold extensions
  split at ha
  · simp at ha
  · rename_i q1 e
    rw [e]
    dsimp only at ha ⊢
    simp only [Prod.mk.injEq, List.cons.injEq] at ha
    obtain ⟨⟨⟨rfl, hxs⟩, hall⟩, hq⟩ := ha
    dsimp only at hx
    rw [if_pos hx]
    have hat : q1.attributes (q1.hstr.length + 2) = (xs, (q1.attributes (q1.hstr.length + 2)).2) := by rw [← hxs]
    have hlen := attributes_length (q1.hstr.length + 2) q1
    have hle := left_le q1
    rw [hxs] at hlen
    have h1 := pmd_params_eq (level % 256) (q1.hstr.length + 2) q1 {} p' xs _ (by omega) hat hp
    have hu : use_permessage_deflate q1 level {} = ((q1.attributes (q1.hstr.length + 2)).2, { p' with compression_level := level % 256 }) := by
      unfold use_permessage_deflate
      rw [if_neg (by simp), if_neg hl]
      exact h1
    rw [hu]
    unfold HeaderParser.all at hall
    unfold extensions
    split at hall
    · rename_i q2 e2
      rw [e2]
    · simp at hall

/-- The numbers that are printed and parsed in handshakes. -/
def WindowTexts (L : Lib) : Prop := ∀ n : Nat, 9 ≤ n → n ≤ 15 →
  L.print_I n = decimal n ∧ L.parse_I (decimal n) = some (n : Int) ∧ NoDate L (decimal n)

def bitsAttr (name : Bytes) (n : Nat) : AttrText := ⟨b! " ", name, some ([], [], decimal n, decimal n), []⟩

def answerAttrs (p : Pmd) : List AttrText :=
  (if p.client_no_context_takeover then [⟨b! " ", b! "client_no_context_takeover", none, []⟩] else [])
  ++ (if p.server_max_window_bits ≠ 15 then [bitsAttr (b! "server_max_window_bits") p.server_max_window_bits.toNat] else [])
  ++ (if p.client_max_window_bits ≠ 15 then [bitsAttr (b! "client_max_window_bits") p.client_max_window_bits.toNat] else [])

def answerFirst : AttrText := ⟨[], b! "permessage-deflate", none, []⟩

theorem answer_text {L : Lib} (hL : WindowTexts L) (p : Pmd) (hp : PmdOk p) :
    pmce_answer L p = headerText [answerFirst :: answerAttrs p] := by
  obtain ⟨h1, h2, h3, h4⟩ := hp
  obtain ⟨m, hm⟩ : ∃ m : Nat, p.server_max_window_bits = m := ⟨p.server_max_window_bits.toNat, by omega⟩
  obtain ⟨n, hn⟩ : ∃ n : Nat, p.client_max_window_bits = n := ⟨p.client_max_window_bits.toNat, by omega⟩
  have hm' := (hL m (by omega) (by omega)).1
  have hn' := (hL n (by omega) (by omega)).1
  unfold pmce_answer answerAttrs
  rw [hm, hn, hm', hn']
  simp only [headerText, element_flat]
  cases p.client_no_context_takeover <;> by_cases hx : (m : Int) = 15 <;> by_cases hy : (n : Int) = 15 <;>
    simp [hx, hy, answerFirst, bitsAttr, AttrText.written] <;> decide

theorem window_text : ∀ n : Nat, n ≤ 15 → (decimal n ≠ [] ∧ (∀ c ∈ decimal n, (¬ (c.toNat ≤ 32 ∨ c.toNat = 127)) ∧ c ≠ chr ',' ∧ c ≠ chr ';') ∧
    (decimal n).head? ≠ some (chr '"') ∧ trim (decimal n) = decimal n) := by decide +kernel

theorem plain_bits {L : Lib} (hL : WindowTexts L) (name : Bytes) (hne : name ≠ []) (hname : ∀ c ∈ name, is_ctl_or_sep c = false) (n : Nat) (h1 : 9 ≤ n) (h2 : n ≤ 15) : Plain L (bitsAttr name n) := by
  obtain ⟨w1, w2, w3, w4⟩ := window_text n h2
  refine ⟨⟨by simp [bitsAttr, Blanks]; decide, by simp [bitsAttr, Blanks], hne, fun c hc => (sep_iff c).1 (hname c hc), ?_⟩, ?_⟩
  · intro b1 b2 raw text e
    simp only [bitsAttr, Option.some.injEq, Prod.mk.injEq] at e
    obtain ⟨rfl, rfl, rfl, rfl⟩ := e
    exact ⟨by simp [Blanks], by simp [Blanks], .bare (fun c hc => w2 c hc) w3⟩
  · intro b1 b2 raw text e
    simp only [bitsAttr, Option.some.injEq, Prod.mk.injEq] at e
    obtain ⟨rfl, rfl, rfl, rfl⟩ := e
    exact (hL n h1 h2).2.2

theorem plain_flag {L : Lib} (lead name : Bytes) (hl : Blanks lead) (hne : name ≠ []) (hname : ∀ c ∈ name, is_ctl_or_sep c = false) : Plain L ⟨lead, name, none, []⟩ :=
  ⟨⟨hl, by simp [Blanks], hne, fun c hc => (sep_iff c).1 (hname c hc), nofun⟩, nofun⟩

theorem report_bits {L : Lib} (hL : WindowTexts L) (name : Bytes) (n : Nat) (h1 : 9 ≤ n) (h2 : n ≤ 15) :
    (report L (bitsAttr name n)).1 = name ∧ (report L (bitsAttr name n)).2.is_null = false ∧ (report L (bitsAttr name n)).2.as_integer = n := by
  obtain ⟨w1, w2, w3, w4⟩ := window_text n h2
  have hI := (hL n h1 h2).2.1
  refine ⟨rfl, ?_, ?_⟩ <;> simp only [report, bitsAttr, AttrText.meaning, valueOf, Value.ofString, w4, if_neg w1, Value.is_null, Value.as_integer, hI, Bool.not_true]

theorem answer_read {L : Lib} (hL : WindowTexts L) (p : Pmd) (hp : PmdOk p) :
    apply_params ((answerAttrs p).map (report L)) {} =
      some { client_no_context_takeover := p.client_no_context_takeover, server_max_window_bits := p.server_max_window_bits,
             client_max_window_bits := p.client_max_window_bits } := by
  obtain ⟨h1, h2, h3, h4⟩ := hp
  obtain ⟨m, hm⟩ : ∃ m : Nat, p.server_max_window_bits = m := ⟨p.server_max_window_bits.toNat, by omega⟩
  obtain ⟨n, hn⟩ : ∃ n : Nat, p.client_max_window_bits = n := ⟨p.client_max_window_bits.toNat, by omega⟩
  have rs := report_bits hL (b! "server_max_window_bits") m (by omega) (by omega)
  have rc := report_bits hL (b! "client_max_window_bits") n (by omega) (by omega)
  have flag : ∀ q : Pmd, apply_param (report L ⟨b! " ", b! "client_no_context_takeover", none, []⟩) q = some { q with client_no_context_takeover := true } := by
    intro q; rfl
  have aps : ∀ q : Pmd, apply_param (report L (bitsAttr (b! "server_max_window_bits") m)) q = some { q with server_max_window_bits := m } := by
    intro q
    unfold apply_param
    rw [rs.1, rs.2.1, rs.2.2]
    rw [if_neg (by decide), if_neg (by decide), if_pos (by decide), if_neg (by decide), if_neg (by omega)]
  have apc : ∀ q : Pmd, apply_param (report L (bitsAttr (b! "client_max_window_bits") n)) q = some { q with client_max_window_bits := n } := by
    intro q
    unfold apply_param
    rw [rc.1, rc.2.1, rc.2.2]
    rw [if_neg (by decide), if_neg (by decide), if_neg (by decide), if_pos (by decide), if_neg (by decide), if_neg (by omega)]
  unfold answerAttrs
  rw [hm, hn]
  cases p.client_no_context_takeover <;> by_cases hx : (m : Int) = 15 <;> by_cases hy : (n : Int) = 15 <;>
    simp [hx, hy, apply_params, flag, aps, apc]

theorem answer_plain {L : Lib} (hL : WindowTexts L) (p : Pmd) (hp : PmdOk p) : ∀ a ∈ answerFirst :: answerAttrs p, Plain L a := by
  obtain ⟨h1, h2, h3, h4⟩ := hp
  intro a ha
  simp only [answerAttrs, List.mem_cons, List.mem_append] at ha
  rcases ha with rfl | (ha | ha) | ha
  · exact plain_flag _ _ (by simp [Blanks]) (by decide) (by decide)
  · split at ha
    · simp only [List.mem_singleton] at ha; subst ha
      exact plain_flag _ _ (by simp [Blanks]; decide) (by decide) (by decide)
    · simp at ha
  · split at ha
    · simp only [List.mem_singleton] at ha; subst ha
      exact plain_bits hL _ (by decide) (by decide) _ (by omega) (by omega)
    · simp at ha
  · split at ha
    · simp only [List.mem_singleton] at ha; subst ha
      exact plain_bits hL _ (by decide) (by decide) _ (by omega) (by omega)
    · simp at ha

/-- What a client collects from the answer of a server. -/
theorem answer_extensions {L : Lib} (hL : WindowTexts L) (p : Pmd) (hp : PmdOk p) (level : Nat) (hl : level ≠ 0) :
    extensions true level ((pmce_answer L p).length + 2) (HeaderParser.reload L (pmce_answer L p)) {} =
      some { compression_level := level % 256, client_no_context_takeover := p.client_no_context_takeover,
             server_max_window_bits := p.server_max_window_bits, client_max_window_bits := p.client_max_window_bits } := by
  rw [answer_text hL p hp]
  obtain ⟨q', h1, h2⟩ := header_ok (L := L) [answerFirst :: answerAttrs p] (by simp)
    (by intro e he; simp only [List.mem_singleton] at he; subst he; exact ⟨by simp, answer_plain hL p hp⟩)
    ((headerText [answerFirst :: answerAttrs p]).length + 2) (by simp)
  exact extensions_single true level hl _ q' _ _ _ _ h1 (by rfl) (answer_read hL p hp)

theorem response_headers (L : Lib) (level : Nat) (date accept : Bytes) (ha : accept.length = 28) (ext : Option Bytes) :
    hs_headers L true level (handshake_response date accept ext) {} =
      (match ext with
        | none => some { upgrade_ok := true, key := accept }
        | some e => match extensions true level (e.length + 2) (HeaderParser.reload L e) {} with
          | none => none
          | some p => some { upgrade_ok := true, key := accept, pmce := p }) := by
  have h : ∀ hs, hs_headers L true level ([(b! "Connection", b! "Upgrade"), (b! "Upgrade", b! "websocket"), (b! "Date", date), (b! "Expires", b! "0"),
      (b! "Sec-WebSocket-Accept", accept)] ++ hs) {} =
      hs_headers L true level hs (if accept.length = 28 then { upgrade_ok := true, key := accept } else { upgrade_ok := true }) := by
    intro hs; rfl
  unfold handshake_response
  rw [h, if_pos ha]
  cases ext with
  | none => rfl
  | some e => rfl

theorem request_headers (L : Lib) (level : Nat) (hl : level ≠ 0) (key : Bytes) (hk : key.length = 24) :
    hs_headers L false level (handshake_request key) {} =
      some { upgrade_ok := true, ws_version_ok := true, key := key, pmce := { compression_level := level % 256 } } := by
  have h : ∀ hs, hs_headers L false level ([(b! "Connection", b! "Upgrade"), (b! "Upgrade", b! "websocket"), (b! "Sec-WebSocket-Version", b! "13"),
      (b! "Sec-WebSocket-Key", key)] ++ hs) {} =
      hs_headers L false level hs (if key.length = 24 then { upgrade_ok := true, ws_version_ok := true, key := key } else { upgrade_ok := true, ws_version_ok := true }) := by
    intro hs; rfl
  have h' : hs_headers L false level [(b! "Sec-WebSocket-Extensions", b! "permessage-deflate; client_max_window_bits")]
        { upgrade_ok := true, ws_version_ok := true, key := key } =
      (match extensions false level 44 (HeaderParser.reload L (b! "permessage-deflate; client_max_window_bits")) {} with
        | none => none
        | some p => some { upgrade_ok := true, ws_version_ok := true, key := key, pmce := p }) := by rfl
  have hr := h [(b! "Sec-WebSocket-Extensions", b! "permessage-deflate; client_max_window_bits")]
  rw [if_pos hk, h'] at hr
  refine Eq.trans hr ?_
  have h2 : headerText [[answerFirst, ⟨b! " ", b! "client_max_window_bits", none, []⟩]] = b! "permessage-deflate; client_max_window_bits" := by decide
  rw [← h2]
  obtain ⟨q', h3, h4⟩ := header_ok (L := L) [[answerFirst, ⟨b! " ", b! "client_max_window_bits", none, []⟩]] (by simp)
    (by
      intro e he; simp only [List.mem_singleton] at he; subst he
      refine ⟨by simp, ?_⟩
      intro a ha
      simp only [List.mem_cons, List.not_mem_nil, or_false] at ha
      rcases ha with rfl | rfl
      · exact plain_flag _ _ (by simp [Blanks]) (by decide) (by decide)
      · exact plain_flag _ _ (by simp [Blanks]; decide) (by decide) (by decide))
    (42 + 2) (by simp)
  rw [extensions_single false level hl _ q' _ _ {} 42 h3 rfl rfl]

end Verif.Ws
