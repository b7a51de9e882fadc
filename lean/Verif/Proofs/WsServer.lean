import Verif.Model.WsServer
import Verif.Spec.WsServer
import Verif.Proofs.HttpServerBare
import Verif.Proofs.WsHandshake
import Verif.Proofs.HttpTarget
import Verif.Proofs.WsMixed
import Verif.Props.WsHandshake
import Verif.Proofs.WsGrows
import Verif.Proofs.HttpServerSync
/-! # WebSocket server sessions over HTTP server sessions -/
namespace Verif.WsServer
open Verif.HttpServer Verif.HttpLib Verif.Spec

variable {Z : Type}

/-! ### The handshake -/

open Verif.Http (name_eq) in
theorem names_differ {n a b : Bytes} (h : name_eq n a = true) (hab : name_eq a b = false) : name_eq n b = false := by
  unfold name_eq at *
  rw [beq_iff_eq] at h
  rw [h]; exact hab

open Verif.Http in
theorem tokens_no_close {V : Http.Lib} (ts : List AttrText) (h : ∀ t ∈ ts, t.Valid ∧ t.value = none ∧ ¬ SameButCase t.name (b! "close")) :
    ∀ (q : HeaderParser V) (pre : Bytes) (fuel : Nat), q.hpos = .at pre.length → q.hstr = pre ++ (ts.map fun t => [t]).flatMap (fun f => chr ',' :: elementText f) → Ws.has_close fuel q = false := by
  induction ts with
  | nil =>
    intro q pre fuel hp hs
    cases fuel with
    | zero => rfl
    | succ n =>
      have : q.next_element = (q, false) := by
        unfold HeaderParser.next_element HeaderParser.next_element_fuel
        simp only [List.map_nil, List.flatMap_nil, List.append_nil] at hs
        simp only [hp, hs, List.getElem?_eq_none (Nat.le_refl _)]
      unfold Ws.has_close
      rw [this]
  | cons t ts ih =>
    intro q pre fuel hp hs
    cases fuel with
    | zero => rfl
    | succ n =>
      obtain ⟨h1, h2, h3⟩ := h t (by simp)
      simp only [List.map_cons, List.flatMap_cons, elementText] at hs
      have hs' : q.hstr = (pre ++ [chr ',']) ++ (t.written ++ (ts.map fun t => [t]).flatMap (fun f => chr ',' :: elementText f)) := by rw [hs]; simp
      have hsep : Sep ((ts.map fun t => [t]).flatMap (fun f => chr ',' :: elementText f)) := by
        cases ts with
        | nil => exact .inl rfl
        | cons u us => exact .inr ⟨_, .inr (by simp only [List.map_cons, List.flatMap_cons, List.cons_append]; rfl)⟩
      have hat := attribute_ok q t h1 (by rw [h2]; intro _ _ _ _ h; cases h) _ _ hs' hsep
      have hlen : (pre ++ [chr ',']).length = pre.length + 1 := by simp
      rw [hlen] at hat
      have hc : q.hstr[pre.length]? = some (chr ',') := by rw [hs]; simp
      have hn : q.next_element = ({ q with hpos := .at ((pre ++ [chr ',']) ++ t.written).length, name := t.name, value := valueOf V t.meaning.2 }, true) := by
        unfold HeaderParser.next_element HeaderParser.next_element_fuel
        simp only [hp, hc, if_true, hat, Option.isSome_some]
      unfold Ws.has_close
      rw [hn]
      dsimp only
      rw [if_neg (by rw [HttpRequest.name_eq_iff]; exact h3)]
      exact ih (fun u hu => h u (List.mem_cons_of_mem _ hu)) _ _ n rfl (by rw [hs']; simp)

open Verif.Http in
theorem no_close (V : Http.Lib) (v : Bytes) (h : KeepsConnection v) (n : Nat) : Ws.has_close n (HeaderParser.reload V v) = false := by
  obtain ⟨ts, hne, rfl, h⟩ := h
  cases ts with
  | nil => exact absurd rfl hne
  | cons t ts =>
    cases n with
    | zero => rfl
    | succ n =>
      obtain ⟨h1, h2, h3⟩ := h t (by simp)
      generalize hq : HeaderParser.reload V (headerText ((t :: ts).map fun t => [t])) = q
      have hp : q.hpos = .before := by rw [← hq]; rfl
      have hs : q.hstr = [] ++ (t.written ++ (ts.map fun t => [t]).flatMap (fun f => chr ',' :: elementText f)) := by
        rw [← hq]
        show headerText _ = _
        rw [List.map_cons, header_flat_elements]; rfl
      have hsep : Sep ((ts.map fun t => [t]).flatMap (fun f => chr ',' :: elementText f)) := by
        cases ts with
        | nil => exact .inl rfl
        | cons u us => exact .inr ⟨_, .inr (by simp only [List.map_cons, List.flatMap_cons, List.cons_append]; rfl)⟩
      have hat := attribute_ok q t h1 (by rw [h2]; intro _ _ _ _ h; cases h) _ _ hs hsep
      have hn : q.next_element = ({ q with hpos := .at ([] ++ t.written).length, name := t.name, value := valueOf V t.meaning.2 }, true) := by
        unfold HeaderParser.next_element HeaderParser.next_element_fuel
        rw [hp]
        simp only [List.length_nil] at hat
        simp only [hat, Option.isSome_some]
      unfold Ws.has_close
      rw [hn]
      dsimp only
      rw [if_neg (by rw [HttpRequest.name_eq_iff]; exact h3)]
      exact tokens_no_close ts (fun u hu => h u (List.mem_cons_of_mem _ hu)) _ _ n rfl (by rw [hs]; simp)

theorem extensions_lax (V : Http.Lib) (level n : Nat) (q : Http.HeaderParser V) (p : Ws.Pmd) : Ws.extensions false level n q p ≠ none := by
  induction n generalizing q p with
  | zero => simp [Ws.extensions]
  | succ n ih =>
    unfold Ws.extensions
    split
    · simp
    · split
      · exact ih _ _
      · rw [if_neg (by simp)]; exact ih _ _

/-- What the loop over the headers has found. -/
theorem headers_found (V : Http.Lib) (level : Nat) (fs : List (Bytes × Bytes)) (hk : ∀ x ∈ fs, SameButCase x.1 (b! "Sec-WebSocket-Key") → x.2.length = 24 ∧ x.2.headD 0 ≠ 0)
    (hc : ∀ x ∈ fs, SameButCase x.1 (b! "Connection") → KeepsConnection x.2) :
    ∀ st : Ws.HsState, (st.key = [] ∨ st.key.headD 0 ≠ 0) → ∃ st', Ws.hs_headers V false level fs st = some st' ∧
      (st.upgrade_ok = true ∨ (∃ n, (n, b! "websocket") ∈ fs ∧ SameButCase n (b! "Upgrade")) → st'.upgrade_ok = true) ∧
      (st.ws_version_ok = true ∨ (∃ n, (n, b! "13") ∈ fs ∧ SameButCase n (b! "Sec-WebSocket-Version")) → st'.ws_version_ok = true) ∧
      (st'.key = [] ∨ st'.key.headD 0 ≠ 0) ∧ (st.key ≠ [] ∨ (∃ n k, (n, k) ∈ fs ∧ SameButCase n (b! "Sec-WebSocket-Key")) → st'.key ≠ []) := by
  induction fs with
  | nil => intro st hs; exact ⟨st, rfl, by simp, by simp, hs, by simp⟩
  | cons x fs ih =>
    intro st hs
    have ih' := ih (fun y hy => hk y (List.mem_cons_of_mem _ hy)) (fun y hy => hc y (List.mem_cons_of_mem _ hy))
    have hkx := hk x (by simp)
    have hcx := hc x (by simp)
    simp only [← HttpRequest.name_eq_iff] at hkx hcx ih' ⊢
    -- a header which is not one of three
    have other : ∀ st2 : Ws.HsState, (st.upgrade_ok = true → st2.upgrade_ok = true) → (st.ws_version_ok = true → st2.ws_version_ok = true) → (st2.key = [] ∨ st2.key.headD 0 ≠ 0) →
        (st.key ≠ [] → st2.key ≠ []) → (Http.name_eq x.1 (b! "Upgrade") = true → x.2 = b! "websocket" → st2.upgrade_ok = true) →
        (Http.name_eq x.1 (b! "Sec-WebSocket-Version") = true → x.2 = b! "13" → st2.ws_version_ok = true) → (Http.name_eq x.1 (b! "Sec-WebSocket-Key") = true → st2.key ≠ []) →
        ∃ st', Ws.hs_headers V false level fs st2 = some st' ∧
          (st.upgrade_ok = true ∨ (∃ n, (n, b! "websocket") ∈ x :: fs ∧ Http.name_eq n (b! "Upgrade") = true) → st'.upgrade_ok = true) ∧
          (st.ws_version_ok = true ∨ (∃ n, (n, b! "13") ∈ x :: fs ∧ Http.name_eq n (b! "Sec-WebSocket-Version") = true) → st'.ws_version_ok = true) ∧
          (st'.key = [] ∨ st'.key.headD 0 ≠ 0) ∧ (st.key ≠ [] ∨ (∃ n k, (n, k) ∈ x :: fs ∧ Http.name_eq n (b! "Sec-WebSocket-Key") = true) → st'.key ≠ []) := by
      intro st2 a1 a2 a3 a4 a5 a6 a7
      obtain ⟨st', e1, e2, e3, e4, e5⟩ := ih' st2 a3
      refine ⟨st', e1, ?_, ?_, e4, ?_⟩
      · rintro (h | ⟨n, hn, hm⟩)
        · exact e2 (.inl (a1 h))
        · rcases List.mem_cons.1 hn with h | h
          · exact e2 (.inl (a5 (by rw [← h]; exact hm) (by rw [← h])))
          · exact e2 (.inr ⟨n, h, hm⟩)
      · rintro (h | ⟨n, hn, hm⟩)
        · exact e3 (.inl (a2 h))
        · rcases List.mem_cons.1 hn with h | h
          · exact e3 (.inl (a6 (by rw [← h]; exact hm) (by rw [← h])))
          · exact e3 (.inr ⟨n, h, hm⟩)
      · rintro (h | ⟨n, k, hn, hm⟩)
        · exact e5 (.inl (a4 h))
        · rcases List.mem_cons.1 hn with h | h
          · exact e5 (.inl (a7 (by rw [← h]; exact hm)))
          · exact e5 (.inr ⟨n, k, h, hm⟩)
    have no : ∀ {a b : Bytes}, Http.name_eq x.1 a = true → Http.name_eq a b = false → ¬ Http.name_eq x.1 b = true := by
      intro a b h1 h2; rw [names_differ h1 h2]; simp
    unfold Ws.hs_headers
    split
    · rename_i h
      rw [if_neg (by rw [no_close V x.2 (hcx h)]; simp)]
      exact other st id id hs id (fun h' => absurd h' (no h (by decide))) (fun h' => absurd h' (no h (by decide))) (fun h' => absurd h' (no h (by decide)))
    · split
      · rename_i h
        refine other _ ?_ ?_ ?_ ?_ ?_ (fun h' => absurd h' (no h (by decide))) (fun h' => absurd h' (no h (by decide)))
        · intro; split <;> simp_all
        · intro; split <;> simp_all
        · split <;> exact hs
        · intro; split <;> simp_all
        · intro _ h2; rw [if_pos h2]
      · rename_i hnc hnu
        split
        · rename_i h
          have h : Http.name_eq x.1 (b! "Sec-WebSocket-Version") = true := by simpa using h
          refine other _ ?_ ?_ ?_ ?_ (fun h' => absurd h' hnu) ?_ (fun h' => absurd h' (no h (by decide)))
          · intro; split <;> simp_all
          · intro; split <;> simp_all
          · split <;> exact hs
          · intro; split <;> simp_all
          · intro _ h2; rw [if_pos h2]
        · rename_i hnv
          have hnv : ¬ Http.name_eq x.1 (b! "Sec-WebSocket-Version") = true := by simpa using hnv
          split
          · rename_i h
            have h : Http.name_eq x.1 (b! "Sec-WebSocket-Key") = true := by simpa using h
            obtain ⟨k1, k2⟩ := hkx h
            rw [if_pos k1]
            refine other _ id id (.inr k2) ?_ (fun h' => absurd h' hnu) (fun h' => absurd h' hnv) ?_
            · intro _ h0; simp only at h0; rw [h0] at k1; simp at k1
            · intro _ h0; simp only at h0; rw [h0] at k1; simp at k1
          · rename_i hnk
            have hnk : ¬ Http.name_eq x.1 (b! "Sec-WebSocket-Key") = true := by simpa using hnk
            rw [if_neg (by simp)]
            split
            · have := extensions_lax V level (x.2.length + 2) (Http.HeaderParser.reload V x.2) st.pmce
              split
              · rename_i h; exact absurd h this
              · exact other _ id id hs id (fun h' => absurd h' hnu) (fun h' => absurd h' hnv) (fun h' => absurd h' hnk)
            · exact other st id id hs id (fun h' => absurd h' hnu) (fun h' => absurd h' hnv) (fun h' => absurd h' hnk)

open Verif.Props in
/-- A request for a WebSocket connection is accepted. -/
theorem accepts (V : Http.Lib) (max lv : Nat) (h : HttpRequest.Headers) (hm : h.method ≠ b! "OPTIONS") (ha : AsksForWebSocket (texts h)) :
    ∃ p', handshake V { max_message_length := max, default_compression_level := lv } h = some (p', 101) ∧ p'.wshs = .s_accepted ∧ Waiting p' ∧ isServer p' = true ∧ inMessage p' = false ∧
      p'.max_message_length = max := by
  obtain ⟨st', e1, e2, e3, e4, e5⟩ := headers_found V lv (texts h) ha.keys ha.connection {} (.inl rfl)
  have u := e2 (.inr ha.upgrade)
  have v := e3 (.inr ha.version)
  have k := e5 (.inr ha.key)
  have k0 : ¬ st'.key.headD 0 = 0 := by rcases e4 with h | h; exact absurd h k; exact h
  unfold handshake
  rw [if_neg hm]
  unfold Ws.accept_handshake_request
  rw [if_neg (by simp)]
  dsimp only [Ws.Parser.fail]
  rw [e1]
  dsimp only
  rw [if_neg (by simp [u, v]; simpa using k0)]
  dsimp only
  by_cases hl : st'.pmce.compression_level ≠ 0 <;> simp only [if_pos hl, if_neg hl]
  · exact ⟨_, if_pos trivial, rfl, ⟨rfl, rfl, rfl, (by decide : (0 : Nat) < 2 ^ 32), fun _ => ⟨rfl, rfl, rfl, rfl⟩⟩, rfl, rfl, rfl⟩
  · exact ⟨_, if_pos trivial, rfl, ⟨rfl, rfl, rfl, (by decide : (0 : Nat) < 2 ^ 32), fun _ => ⟨rfl, rfl, rfl, rfl⟩⟩, rfl, rfl, rfl⟩

/-! ### Frames -/

theorem legal_plain (server pmce : Bool) (fs : List WsFrame) (hp : ∀ f ∈ fs, f.rsv1 = false) : ∀ m, LegalSequence server false m fs → LegalSequence server pmce m fs := by
  induction fs with
  | nil => intro _ _; trivial
  | cons f fs ih =>
    intro m h
    refine ⟨⟨h.1.1, ?_⟩, ih (fun g hg => hp g (List.mem_cons_of_mem _ hg)) _ h.2⟩
    rcases h.1.2 with h | h | h
    · exact .inl ⟨h.1, h.2.1, fun h' => by rw [hp f (by simp)] at h'; exact absurd h' (by simp), h.2.2.2⟩
    · exact .inr (.inl h)
    · exact .inr (.inr h)

theorem legal_any (server pmce : Bool) (fs : List WsFrame) : ∀ m, LegalSequence server false m fs → LegalSequence server pmce m fs := by
  induction fs with
  | nil => intro _ _; trivial
  | cons f fs ih =>
    intro m h
    refine ⟨⟨h.1.1, ?_⟩, ih _ h.2⟩
    rcases h.1.2 with h | h | h
    · exact .inl ⟨h.1, h.2.1, fun h' => absurd (h.2.2.1 h') (by simp), h.2.2.2⟩
    · exact .inr (.inl h)
    · exact .inr (.inr h)

open Verif.Props in
theorem legal_agreed {server agreed : Bool} {p : Ws.Parser} {fs : List WsFrame} {A : Prop} (ha : A → hasPmce p = true) (h : agreed = true → A) (hl : LegalSequence server agreed false fs) :
    LegalSequence server (hasPmce p) false fs := by
  cases agreed with
  | false => exact legal_any _ _ _ _ hl
  | true => rw [ha (h rfl)]; exact hl

open Verif.Props in
theorem holds_start {s : Ws.Session Z} (p : Ws.Parser) (z : Z) (h1 : s.parser = p) (h2 : s.pmce = if p.pmce_send_window_bits ≠ 0 then some (z, []) else none) : Holds s z := by
  intro h
  rw [h1] at h
  unfold hasPmce at h
  rw [h2, if_pos (by simpa using h)]
  rfl

open Verif.Props in
theorem accept_agreed {V : Http.Lib} {p p' : Ws.Parser} {h : HttpRequest.Headers} (a1 : handshake V p h = some (p', 101)) (hm : h.method ≠ b! "OPTIONS") {max lv : Nat}
    (_ : p = { max_message_length := max, default_compression_level := lv }) (ha : ∃ q ext, Ws.accept_handshake_request V p (texts h) = some (q, some ext)) : hasPmce p' = true := by
  obtain ⟨q, ext, hq⟩ := ha
  unfold handshake at a1
  rw [if_neg hm, hq] at a1
  simp only at a1
  have hl := (C13_server V p q (texts h) (some ext) hq).resolve_right (by simp)
  split at a1
  · simp only [Option.some.injEq, Prod.mk.injEq, and_true] at a1
    subst a1
    unfold hasPmce
    have := hl.2.1
    simp; omega
  · split at a1 <;> simp at a1

theorem assemble_closed (frames : List (WsFrame × Bytes)) : assemble .closed frames = (.closed, []) := by
  induction frames with
  | nil => rfl
  | cons x t ih => simp [assemble, assemble1, ih]

open Verif.Props in
/-- Reads of whole frames. -/
theorem frames_fold (g : Cfg Z) (max : Nat) (hq : Quiet g.env max) (reads : List (List Sent)) : ∀ (w : W Z) (st : MsgState) (z : Z), w.threw = false → Agrees w.ws st →
    (st ≠ .closed → w.ws.parser.max_message_length = max) → (st ≠ .closed → Holds w.ws z) → Readable max (unpackMessage g.env.inflate_stream g.env.inflate_finish) z reads.flatten →
    (st ≠ .closed → LegalSequence (isServer w.ws.parser) (hasPmce w.ws.parser) (inMessage w.ws.parser) (reads.flatten.map Sent.frame)) → WithinLimit max st (reads.flatten.map Sent.meant) →
    ∃ w', (reads.map fun r => HttpServer.Ev.upgraded (onWire r) false).foldl (W.step g) w = w' ∧ w'.threw = false ∧ w'.responses = w.responses ∧ w'.addresses = w.addresses ∧
      Ws.Grows w.ws w'.ws ∧ delivered w'.ws.trace = delivered w.ws.trace ++ (assemble st (reads.flatten.map Sent.meant)).2 := by
  induction reads with
  | nil => intro w st z h _ _ _ _ _ _; exact ⟨w, rfl, h, rfl, rfl, .refl _, by simp [assemble]⟩
  | cons r rs ih =>
    intro w st z h ha hm hz hp hl hw
    simp only [List.flatten_cons] at hp hl hw ⊢
    rw [List.map_append, within_append] at hw
    have hl2 : st ≠ .closed → LegalSequence (isServer w.ws.parser) (hasPmce w.ws.parser) (inMessage w.ws.parser) (r.map Sent.frame) ∧
        LegalSequence (isServer w.ws.parser) (hasPmce w.ws.parser) ((r.map Sent.frame).foldl WsFrame.after (inMessage w.ws.parser)) (rs.flatten.map Sent.frame) := by
      intro h; have := hl h; rw [List.map_append, legal_append] at this; exact this
    obtain ⟨t, z', t1, t2, t3, tr, t4⟩ := sent_read g.env max hq (g.addr (w.calls + 1)) r rs.flatten w.ws st z ha hm hz hp (fun h => (hl2 h).1) hw.1
    have hcl : (assemble st (r.map Sent.meant)).1 ≠ .closed → st ≠ .closed := fun h hc => h (by rw [hc, assemble_closed])
    have hg := Ws.grows_stream g.env (g.addr (w.calls + 1)) w.ws (onWire r)
    have hs : W.step g w (.upgraded (onWire r) false) = { w with calls := w.calls + 1, ws := t, threw := false } := by
      unfold W.step
      rw [if_neg (by simp [h])]
      have t1 : w.ws.stream g.env (g.addr (w.calls + 1)) (onWire r) = (t, [], some false) := t1
      simp only [t1]
      rfl
    have t1 : w.ws.stream g.env (g.addr (w.calls + 1)) (onWire r) = (t, [], some false) := t1
    rw [t1] at hg
    obtain ⟨w', i1, i2, i3, i4, i5, i6⟩ := ih { w with calls := w.calls + 1, ws := t, threw := false } (assemble st (r.map Sent.meant)).1 z' rfl t2 (fun h => (t4 h).1) (fun h => (t4 h).2.1) tr
      (fun h => by
        obtain ⟨v1, vh, v2, v3, v4⟩ := t4 h
        simp only
        rw [v2, v3, v4]
        exact (hl2 (hcl h)).2) hw.2
    refine ⟨w', by rw [List.map_cons, List.foldl_cons, hs]; exact i1, i2, i3, i4, hg.trans i5, ?_⟩
    rw [i6, t3, List.map_append, assemble_append]; simp

theorem run_ack {A : App} {c : HttpRequest.Cfg} {L : Lib} (l : List Bytes) : ∀ (s : Sess L), s.failed = none → s.ack = true →
    run A c s [] (l.map fun b => .receive b false) = some ({ s with trace := s.trace ++ l.map fun b => .upgraded b false }, []) := by
  induction l with
  | nil => intro s _ _; simp [run]
  | cons b l ih =>
    intro s hf ha
    simp only [List.map_cons, run]
    rw [step_ack _ _ _ hf ha]
    simp only
    rw [ih (s.call (.upgraded b false)) hf ha]
    simp [Sess.call]

end Verif.WsServer
