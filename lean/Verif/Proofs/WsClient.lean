import Verif.Model.WsClient
import Verif.Spec.WsClient
import Verif.Proofs.WsServerInv
import Verif.Proofs.HttpClientBare
/-! # WebSocket client sessions over HTTP client sessions -/
namespace Verif.WsClient
open Verif.HttpLib Verif.Spec
open Verif.WsServer (names_differ no_close legal_plain assemble_closed)

variable {Z : Type}

/-! ### The handshake -/

section
open Verif.Http

/-- The parser is behind an attribute of the last element; `ts` are the attributes that are left. -/
def Tail {V : Http.Lib} (q : HeaderParser V) (ts : List AttrText) : Prop := ∃ pre, q.hpos = .at pre.length ∧ q.hstr = pre ++ ts.flatMap fun t => chr ';' :: t.written

variable {V : Http.Lib}

theorem tail_sep (ts : List AttrText) : Sep (ts.flatMap fun t => chr ';' :: t.written) := by
  have := semi_sep ts [] (.inl rfl)
  simpa using this

theorem tail_at {q : HeaderParser V} {t : AttrText} {ts : List AttrText} {pre : Bytes} (ht : Plain V t) (h2 : q.hstr = pre ++ (t :: ts).flatMap fun t => chr ';' :: t.written) :
    ∃ q', q.attribute_at (pre.length + 1) = (q', some (match (ts.flatMap fun t => chr ';' :: t.written).head? with | none => 0 | some c => c)) ∧ Tail q' ts ∧ q'.hstr = q.hstr ∧ q'.name = t.name := by
  have hs' : q.hstr = (pre ++ [chr ';']) ++ (t.written ++ ts.flatMap fun t => chr ';' :: t.written) := by rw [h2]; simp
  have hat := attribute_ok q t ht.1 ht.2 _ _ hs' (tail_sep ts)
  have hlen : (pre ++ [chr ';']).length = pre.length + 1 := by simp
  rw [hlen] at hat
  exact ⟨_, hat, ⟨_, rfl, by simp only; rw [hs']; simp⟩, rfl, rfl⟩

theorem tail_next {q : HeaderParser V} {ts : List AttrText} (hts : ∀ t ∈ ts, Plain V t) (h : Tail q ts) :
    (ts = [] ∧ q.next_attribute = (q, false)) ∨ ∃ q' ts', q.next_attribute = (q', true) ∧ Tail q' ts' ∧ q'.hstr = q.hstr ∧ ts'.length < ts.length ∧ ∀ t ∈ ts', Plain V t := by
  obtain ⟨pre, h1, h2⟩ := h
  cases ts with
  | nil =>
    refine .inl ⟨rfl, ?_⟩
    unfold HeaderParser.next_attribute
    simp only [List.flatMap_nil, List.append_nil] at h2
    simp only [h1, h2, List.getElem?_eq_none (Nat.le_refl _)]
  | cons t ts =>
    obtain ⟨q', e1, e2, e3, -⟩ := tail_at (hts t (by simp)) h2
    have hc : q.hstr[pre.length]? = some (chr ';') := by rw [h2]; simp
    refine .inr ⟨q', ts, ?_, e2, e3, by simp, fun u hu => hts u (List.mem_cons_of_mem _ hu)⟩
    unfold HeaderParser.next_attribute
    simp only [h1, hc]
    rw [if_neg (by decide), if_pos trivial, e1]
    rfl

theorem tail_params (level n : Nat) : ∀ (q : HeaderParser V) (ts : List AttrText) (p : Ws.Pmd), (∀ t ∈ ts, Plain V t) → Tail q ts →
    ∃ ts', (∀ t ∈ ts', Plain V t) ∧ Tail (Ws.pmd_params level n q p).1 ts' := by
  induction n with
  | zero => intro q ts p h1 h2; exact ⟨ts, h1, h2⟩
  | succ n ih =>
    intro q ts p h1 h2
    unfold Ws.pmd_params
    rcases tail_next h1 h2 with ⟨rfl, e⟩ | ⟨q', ts', e, e2, -, -, e5⟩
    · rw [e]; exact ⟨[], h1, h2⟩
    · rw [e]
      simp only
      repeat' split
      all_goals first | exact ⟨ts', e5, e2⟩ | exact ih _ _ _ e5 e2

theorem tail_element (n : Nat) : ∀ (q : HeaderParser V) (ts : List AttrText), (∀ t ∈ ts, Plain V t) → Tail q ts → (q.next_element_fuel n).2 = false := by
  induction n with
  | zero => intro q ts _ _; rfl
  | succ n ih =>
    intro q ts hts h
    obtain ⟨pre, h1, h2⟩ := h
    unfold HeaderParser.next_element_fuel
    cases ts with
    | nil =>
      simp only [List.flatMap_nil, List.append_nil] at h2
      simp only [h1, h2, List.getElem?_eq_none (Nat.le_refl _)]
    | cons t ts =>
      obtain ⟨q', e1, e2, e3, -⟩ := tail_at (hts t (by simp)) h2
      have hc : q.hstr[pre.length]? = some (chr ';') := by rw [h2]; simp
      simp only [h1, hc]
      rw [if_neg (by decide), if_pos trivial, e1]
      exact ih q' ts (fun u hu => hts u (List.mem_cons_of_mem _ hu)) e2

/-- A header with nothing but `permessage-deflate` is not refused. -/
theorem only_deflate (hV : Ws.WindowTexts V) (v : Bytes) (h : OnlyDeflate v) (level : Nat) (p : Ws.Pmd) : ∃ p', Ws.extensions true level (v.length + 2) (HeaderParser.reload V v) p = some p' := by
  obtain ⟨t, ts, rfl, hv, ht, hn, hw⟩ := h
  have hts : ∀ a ∈ t :: ts, Plain V a := by
    intro a ha
    refine ⟨hv a ha, fun b1 b2 raw text e => ?_⟩
    rcases List.mem_cons.1 ha with rfl | ha
    · rw [ht] at e; exact absurd e (by simp)
    · have d : ∀ raw ∈ [b! "9", b! "10", b! "11", b! "12", b! "13", b! "14", b! "15"], ∃ n, n ≤ 15 ∧ 9 ≤ n ∧ raw = decimal n := by decide +kernel
      obtain ⟨n, n1, n2, rfl⟩ := d raw (hw a ha b1 b2 raw text e)
      exact (hV n n2 n1).2.2
  generalize hq : HeaderParser.reload V (elementText (t :: ts)) = q
  have hp : q.hpos = .before := by rw [← hq]; rfl
  have hs : q.hstr = [] ++ (t.written ++ ts.flatMap fun t => chr ';' :: t.written) := by
    rw [← hq]
    show elementText _ = _
    rw [element_flat]; rfl
  have hat := attribute_ok q t (hts t (by simp)).1 (hts t (by simp)).2 _ _ hs (tail_sep ts)
  have hnx : q.next_element = ({ q with hpos := .at ([] ++ t.written).length, name := t.name, value := valueOf V t.meaning.2 }, true) := by
    unfold HeaderParser.next_element HeaderParser.next_element_fuel
    rw [hp]
    simp only [List.length_nil] at hat
    simp only [hat, Option.isSome_some]
  generalize hq1 : ({ q with hpos := .at ([] ++ t.written).length, name := t.name, value := valueOf V t.meaning.2 } : HeaderParser V) = q1 at hnx
  have h1 : Tail q1 ts := by rw [← hq1]; exact ⟨[] ++ t.written, rfl, by simp only; rw [hs]; simp⟩
  have hname : name_eq q1.name (b! "permessage-deflate") = true := by rw [← hq1, HttpRequest.name_eq_iff]; exact hn
  have hts' : ∀ a ∈ ts, Plain V a := fun a ha => hts a (List.mem_cons_of_mem _ ha)
  obtain ⟨ts', k1, k2⟩ : ∃ ts', (∀ t ∈ ts', Plain V t) ∧ Tail (Ws.use_permessage_deflate q1 level p).1 ts' := by
    unfold Ws.use_permessage_deflate
    split
    · exact ⟨ts, hts', h1⟩
    · split
      · exact ⟨ts, hts', h1⟩
      · exact tail_params _ _ _ _ _ hts' h1
  have k3 := tail_element ((Ws.use_permessage_deflate q1 level p).1.hstr.length + 2) _ _ k1 k2
  unfold Ws.extensions
  rw [hnx]
  simp only
  rw [if_pos hname]
  unfold Ws.extensions
  split
  · exact ⟨_, rfl⟩
  · rename_i e
    unfold HeaderParser.next_element at e
    rw [e] at k3
    simp at k3

end

/-- What the loop over the headers has found. -/
theorem headers_found (V : Http.Lib) (hV : Ws.WindowTexts V) (level : Nat) (accept : Bytes) (hacc : accept.length = 28) (fs : List (Bytes × Bytes))
    (hk : ∀ x ∈ fs, SameButCase x.1 (b! "Sec-WebSocket-Accept") → x.2 = accept)
    (hc : ∀ x ∈ fs, SameButCase x.1 (b! "Connection") → KeepsConnection x.2) (he : ∀ x ∈ fs, SameButCase x.1 (b! "Sec-WebSocket-Extensions") → OnlyDeflate x.2) :
    ∀ st : Ws.HsState, (st.key = [] ∨ st.key = accept) → ∃ st', Ws.hs_headers V true level fs st = some st' ∧
      (st.upgrade_ok = true ∨ (∃ n, (n, b! "websocket") ∈ fs ∧ SameButCase n (b! "Upgrade")) → st'.upgrade_ok = true) ∧
      (st'.key = [] ∨ st'.key = accept) ∧ (st.key ≠ [] ∨ (∃ n k, (n, k) ∈ fs ∧ SameButCase n (b! "Sec-WebSocket-Accept")) → st'.key ≠ []) := by
  induction fs with
  | nil => intro st hs; exact ⟨st, rfl, by simp, hs, by simp⟩
  | cons x fs ih =>
    intro st hs
    have ih' := ih (fun y hy => hk y (List.mem_cons_of_mem _ hy)) (fun y hy => hc y (List.mem_cons_of_mem _ hy)) (fun y hy => he y (List.mem_cons_of_mem _ hy))
    have hkx := hk x (by simp)
    have hcx := hc x (by simp)
    have hex := he x (by simp)
    simp only [← HttpRequest.name_eq_iff] at hkx hcx hex ih' ⊢
    have other : ∀ st2 : Ws.HsState, (st.upgrade_ok = true → st2.upgrade_ok = true) → (st2.key = [] ∨ st2.key = accept) →
        (st.key ≠ [] → st2.key ≠ []) → (Http.name_eq x.1 (b! "Upgrade") = true → x.2 = b! "websocket" → st2.upgrade_ok = true) → (Http.name_eq x.1 (b! "Sec-WebSocket-Accept") = true → st2.key ≠ []) →
        ∃ st', Ws.hs_headers V true level fs st2 = some st' ∧
          (st.upgrade_ok = true ∨ (∃ n, (n, b! "websocket") ∈ x :: fs ∧ Http.name_eq n (b! "Upgrade") = true) → st'.upgrade_ok = true) ∧
          (st'.key = [] ∨ st'.key = accept) ∧ (st.key ≠ [] ∨ (∃ n k, (n, k) ∈ x :: fs ∧ Http.name_eq n (b! "Sec-WebSocket-Accept") = true) → st'.key ≠ []) := by
      intro st2 a1 a3 a4 a5 a7
      obtain ⟨st', e1, e2, e4, e5⟩ := ih' st2 a3
      refine ⟨st', e1, ?_, e4, ?_⟩
      · rintro (h | ⟨n, hn, hm⟩)
        · exact e2 (.inl (a1 h))
        · rcases List.mem_cons.1 hn with h | h
          · exact e2 (.inl (a5 (by rw [← h]; exact hm) (by rw [← h])))
          · exact e2 (.inr ⟨n, h, hm⟩)
      · rintro (h | ⟨n, k, hn, hm⟩)
        · exact e5 (.inl (a4 h))
        · rcases List.mem_cons.1 hn with h | h
          · exact e5 (.inl (a7 (by rw [← h]; exact hm)))
          · exact e5 (.inr ⟨n, k, h, hm⟩)
    have no : ∀ {a b : Bytes}, Http.name_eq x.1 a = true → Http.name_eq a b = false → ¬ Http.name_eq x.1 b = true := by
      intro a b h1 h2; rw [names_differ h1 h2]; simp
    unfold Ws.hs_headers
    simp only [Bool.not_true, Bool.false_and, Bool.true_and, Bool.false_eq_true, if_false]
    split
    · rename_i h
      rw [if_neg (by rw [no_close V x.2 (hcx h)]; simp)]
      exact other st id hs id (fun h' => absurd h' (no h (by decide))) (fun h' => absurd h' (no h (by decide)))
    · split
      · rename_i h
        refine other _ ?_ ?_ ?_ ?_ (fun h' => absurd h' (no h (by decide)))
        · intro; split <;> simp_all
        · split <;> exact hs
        · intro; split <;> simp_all
        · intro _ h2; rw [if_pos h2]
      · rename_i hnc hnu
        split
        · rename_i h
          have k := hkx h
          rw [if_pos (by rw [k]; exact hacc)]
          refine other _ id (.inr k) ?_ (fun h' => absurd h' hnu) ?_
          · intro _ h0; simp only at h0; rw [← k, h0] at hacc; simp at hacc
          · intro _ h0; simp only at h0; rw [← k, h0] at hacc; simp at hacc
        · rename_i hnk
          split
          · rename_i h
            obtain ⟨p', hp'⟩ := only_deflate hV x.2 (hex h) level st.pmce
            rw [hp']
            exact other _ id hs id (fun h' => absurd h' hnu) (fun h' => absurd h' hnk)
          · exact other st id hs id (fun h' => absurd h' hnu) (fun h' => absurd h' hnk)

open Verif.Props in
/-- A response that agrees to a WebSocket connection is accepted. -/
theorem accepts (V : Http.Lib) (hV : Ws.WindowTexts V) (accept : Bytes) (hacc : accept.length = 28) (hacc0 : accept.headD 0 ≠ 0) (max lv : Nat) (fs : List (Bytes × Bytes)) (ha : AgreesToWebSocket accept fs) :
    ∃ p', Ws.accept_handshake_response V accept { wshs := .c_req_sent, max_message_length := max, default_compression_level := lv } fs = some p' ∧ p'.wshs = .c_accepted ∧ Waiting p' ∧ isServer p' = false ∧ inMessage p' = false ∧
      p'.max_message_length = max := by
  obtain ⟨st', e1, e2, e4, e5⟩ := headers_found V hV lv accept hacc fs ha.keys ha.connection ha.extension {} (.inl rfl)
  have u := e2 (.inr ha.upgrade)
  have k : st'.key = accept := e4.resolve_left (e5 (.inr (by obtain ⟨n, h1, h2⟩ := ha.key; exact ⟨n, accept, h1, h2⟩)))
  unfold Ws.accept_handshake_response
  rw [if_neg (by simp)]
  dsimp only [Ws.Parser.fail]
  rw [e1]
  dsimp only
  rw [if_neg (by rw [k]; simp only [u, Bool.not_true, Bool.false_or, decide_eq_true_eq]; exact hacc0), if_neg (by rw [k]; simp)]
  by_cases hl : st'.pmce.compression_level ≠ 0 <;> simp only [if_pos hl, if_neg hl]
  · exact ⟨_, rfl, rfl, ⟨rfl, rfl, rfl, (by decide : (0 : Nat) < 2 ^ 32), fun _ => ⟨rfl, rfl, rfl, rfl⟩⟩, rfl, rfl, rfl⟩
  · exact ⟨_, rfl, rfl, ⟨rfl, rfl, rfl, (by decide : (0 : Nat) < 2 ^ 32), fun _ => ⟨rfl, rfl, rfl, rfl⟩⟩, rfl, rfl, rfl⟩

open Verif.Props in
theorem agreed_response {V : Http.Lib} {accept : Bytes} {p p' : Ws.Parser} {fs : List (Bytes × Bytes)} (a1 : Ws.accept_handshake_response V accept p fs = some p') {max lv : Nat}
    (hp : p = { wshs := .c_req_sent, max_message_length := max, default_compression_level := lv }) (ha : ∃ q, Ws.accept_handshake_response V accept p fs = some q ∧ q.pmce_compression_level_m2 ≠ 0) : hasPmce p' = true := by
  obtain ⟨q, hq, hn⟩ := ha
  rw [a1] at hq
  cases hq
  rcases C13_client V accept p p' fs a1 with h | h
  · unfold hasPmce
    have := h.1
    simp; omega
  · exact absurd (by rw [h.1, hp]) hn

/-! ### Frames -/

open Verif.Props in
/-- Reads of whole frames. -/
theorem frames_fold (g : Cfg Z) (max : Nat) (hq : Quiet g.env max) (reads : List (List Sent)) : ∀ (w : W Z) (st : MsgState) (z : Z), w.threw = false → Agrees w.ws st →
    (st ≠ .closed → w.ws.parser.max_message_length = max) → (st ≠ .closed → Holds w.ws z) → Readable max (unpackMessage g.env.inflate_stream g.env.inflate_finish) z reads.flatten →
    (st ≠ .closed → LegalSequence (isServer w.ws.parser) (hasPmce w.ws.parser) (inMessage w.ws.parser) (reads.flatten.map Sent.frame)) → WithinLimit max st (reads.flatten.map Sent.meant) →
    ∃ w', (reads.map fun r => HttpClient.Ev.upgraded (onWire r) false).foldl (W.step g) w = w' ∧ w'.threw = false ∧ w'.statuses = w.statuses ∧
      Ws.Grows w.ws w'.ws ∧ delivered w'.ws.trace = delivered w.ws.trace ++ (assemble st (reads.flatten.map Sent.meant)).2 := by
  induction reads with
  | nil => intro w st z h _ _ _ _ _ _; exact ⟨w, rfl, h, rfl, .refl _, by simp [assemble]⟩
  | cons r rs ih =>
    intro w st z h ha hm hz hp hl hw
    simp only [List.flatten_cons] at hp hl hw ⊢
    rw [List.map_append, within_append] at hw
    have hl2 : st ≠ .closed → LegalSequence (isServer w.ws.parser) (hasPmce w.ws.parser) (inMessage w.ws.parser) (r.map Sent.frame) ∧
        LegalSequence (isServer w.ws.parser) (hasPmce w.ws.parser) ((r.map Sent.frame).foldl WsFrame.after (inMessage w.ws.parser)) (rs.flatten.map Sent.frame) := by
      intro h; have := hl h; rw [List.map_append, legal_append] at this; exact this
    obtain ⟨t, z', t1, t2, t3, tr, t4⟩ := sent_read g.env max hq (g.addr (w.calls + 1)) r rs.flatten w.ws st z ha hm hz hp (fun h => (hl2 h).1) hw.1
    have hcl : (assemble st (r.map Sent.meant)).1 ≠ .closed → st ≠ .closed := fun h hc => h (by rw [hc, assemble_closed])
    have hg := Ws.grows_stream g.env (g.addr (w.calls + 1)) w.ws (onWire r)
    have hs : W.step g w (.upgraded (onWire r) false) = { w with calls := w.calls + 1, ws := t, threw := false } := by
      unfold W.step
      rw [if_neg (by simp [h])]
      have t1 : w.ws.stream g.env (g.addr (w.calls + 1)) (onWire r) = (t, [], some false) := t1
      simp only [t1]
      rfl
    have t1 : w.ws.stream g.env (g.addr (w.calls + 1)) (onWire r) = (t, [], some false) := t1
    rw [t1] at hg
    obtain ⟨w', i1, i2, i3, i5, i6⟩ := ih { w with calls := w.calls + 1, ws := t, threw := false } (assemble st (r.map Sent.meant)).1 z' rfl t2 (fun h => (t4 h).1) (fun h => (t4 h).2.1) tr
      (fun h => by
        obtain ⟨v1, vh, v2, v3, v4⟩ := t4 h
        simp only
        rw [v2, v3, v4]
        exact (hl2 (hcl h)).2) hw.2
    refine ⟨w', by rw [List.map_cons, List.foldl_cons, hs]; exact i1, i2, i3, hg.trans i5, ?_⟩
    rw [i6, t3, List.map_append, assemble_append]; simp

/-! ### Handshakes that have been accepted -/

open Verif.Ws in
theorem hs_sound (V : Http.Lib) (level : Nat) (fs : List (Bytes × Bytes)) : ∀ st st' : HsState, hs_headers V true level fs st = some st' →
    (st'.upgrade_ok = true → st.upgrade_ok = true ∨ ∃ n, (n, b! "websocket") ∈ fs ∧ SameButCase n (b! "Upgrade")) ∧
    (st'.key = st.key ∨ ∃ n, (n, st'.key) ∈ fs ∧ SameButCase n (b! "Sec-WebSocket-Accept")) := by
  induction fs with
  | nil => intro st st' h; simp only [hs_headers, Option.some.injEq] at h; subst h; exact ⟨.inl, .inl rfl⟩
  | cons x fs ih =>
    intro st st' h
    have other : ∀ st2, hs_headers V true level fs st2 = some st' → (st2.upgrade_ok = true → st.upgrade_ok = true ∨ (x.2 = b! "websocket" ∧ SameButCase x.1 (b! "Upgrade"))) →
        (st2.key = st.key ∨ (SameButCase x.1 (b! "Sec-WebSocket-Accept") ∧ st2.key = x.2)) →
        (st'.upgrade_ok = true → st.upgrade_ok = true ∨ ∃ n, (n, b! "websocket") ∈ x :: fs ∧ SameButCase n (b! "Upgrade")) ∧
        (st'.key = st.key ∨ ∃ n, (n, st'.key) ∈ x :: fs ∧ SameButCase n (b! "Sec-WebSocket-Accept")) := by
      intro st2 h a c
      obtain ⟨i1, i3⟩ := ih st2 st' h
      refine ⟨fun h => ?_, ?_⟩
      · rcases i1 h with h | ⟨n, h1, h2⟩
        · rcases a h with h | ⟨h1, h2⟩
          · exact .inl h
          · exact .inr ⟨x.1, by rw [← h1]; simp, h2⟩
        · exact .inr ⟨n, List.mem_cons_of_mem _ h1, h2⟩
      · rcases i3 with h | ⟨n, h1, h2⟩
        · rcases c with h' | ⟨h1, h2⟩
          · exact .inl (h.trans h')
          · exact .inr ⟨x.1, by rw [h, h2]; simp, h1⟩
        · exact .inr ⟨n, List.mem_cons_of_mem _ h1, h2⟩
    unfold hs_headers at h
    simp only [Bool.not_true, Bool.true_and, Bool.false_and, Bool.false_eq_true, if_false] at h
    split at h
    · split at h
      · simp at h
      · exact other st h .inl (.inl rfl)
    · split at h
      · rename_i hn
        refine other _ h ?_ ?_
        · split
          · rename_i hv; exact fun _ => .inr ⟨hv, (HttpRequest.name_eq_iff _ _).1 hn⟩
          · exact .inl
        · split <;> exact .inl rfl
      · split at h
        · rename_i hn
          refine other _ h ?_ ?_
          · split <;> exact .inl
          · split
            · exact .inr ⟨(HttpRequest.name_eq_iff _ _).1 hn, rfl⟩
            · exact .inl rfl
        · split at h
          · split at h
            · simp at h
            · exact other _ h .inl (.inl rfl)
          · exact other st h .inl (.inl rfl)

open Verif.Ws in
theorem response_cases (V : Http.Lib) (accept : Bytes) (p p' : Parser) (fs : List (Bytes × Bytes)) (hh : accept_handshake_response V accept p fs = some p') :
    p.wshs = .c_req_sent ∧ ((p'.wshs = .c_accepted ∧ AnswersWebSocket accept fs) ∨ p'.wshs = .c_req_sent) := by
  unfold accept_handshake_response at hh
  split at hh
  · simp at hh
  · rename_i hp
    have hp : p.wshs = .c_req_sent := by simpa using hp
    refine ⟨hp, ?_⟩
    simp only at hh
    have bad : (p.fail "handshake response invalid").wshs = .c_req_sent := by simp [Parser.fail, hp]
    split at hh
    · simp only [Option.some.injEq] at hh; rw [← hh]; exact .inr bad
    · rename_i st hst
      split at hh
      · simp only [Option.some.injEq] at hh; rw [← hh]; exact .inr bad
      · rename_i hok
        split at hh
        · simp only [Option.some.injEq] at hh; rw [← hh]; exact .inr bad
        · rename_i hkey
          have hkey : accept = st.key := by simpa using hkey
          simp only [Option.some.injEq] at hh
          simp only [Bool.or_eq_true, Bool.not_eq_true', decide_eq_true_eq, not_or] at hok
          obtain ⟨s1, s3⟩ := hs_sound V _ _ _ _ hst
          have k : st.key ≠ [] := by intro h0; rw [h0] at hok; simp at hok
          refine .inl ⟨by rw [← hh], (s1 (by simpa using hok.1)).resolve_left (by simp), ?_⟩
          rw [hkey]
          exact s3.resolve_left k

end Verif.WsClient
