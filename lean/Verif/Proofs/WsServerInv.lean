import Verif.Proofs.WsServer
/-! # WebSocket server sessions over HTTP server sessions: what holds in all histories -/
namespace Verif.WsServer
open Verif.HttpServer Verif.HttpLib Verif.Spec Verif.Ws

variable {Z : Type}

/-! ### Handshakes -/

theorem hs_sound (V : Http.Lib) (level : Nat) (fs : List (Bytes × Bytes)) : ∀ st st' : HsState, hs_headers V false level fs st = some st' →
    (st'.upgrade_ok = true → st.upgrade_ok = true ∨ ∃ n, (n, b! "websocket") ∈ fs ∧ SameButCase n (b! "Upgrade")) ∧
    (st'.ws_version_ok = true → st.ws_version_ok = true ∨ ∃ n, (n, b! "13") ∈ fs ∧ SameButCase n (b! "Sec-WebSocket-Version")) ∧
    (st'.key ≠ [] → st.key ≠ [] ∨ ∃ n k, (n, k) ∈ fs ∧ SameButCase n (b! "Sec-WebSocket-Key") ∧ k.length = 24) := by
  induction fs with
  | nil => intro st st' h; simp only [hs_headers, Option.some.injEq] at h; subst h; exact ⟨.inl, .inl, .inl⟩
  | cons x fs ih =>
    intro st st' h
    -- a header that changes the state to `st2`
    have other : ∀ st2, hs_headers V false level fs st2 = some st' → (st2.upgrade_ok = true → st.upgrade_ok = true ∨ (x.2 = b! "websocket" ∧ SameButCase x.1 (b! "Upgrade"))) →
        (st2.ws_version_ok = true → st.ws_version_ok = true ∨ (x.2 = b! "13" ∧ SameButCase x.1 (b! "Sec-WebSocket-Version"))) →
        (st2.key ≠ [] → st.key ≠ [] ∨ (SameButCase x.1 (b! "Sec-WebSocket-Key") ∧ x.2.length = 24)) →
        (st'.upgrade_ok = true → st.upgrade_ok = true ∨ ∃ n, (n, b! "websocket") ∈ x :: fs ∧ SameButCase n (b! "Upgrade")) ∧
        (st'.ws_version_ok = true → st.ws_version_ok = true ∨ ∃ n, (n, b! "13") ∈ x :: fs ∧ SameButCase n (b! "Sec-WebSocket-Version")) ∧
        (st'.key ≠ [] → st.key ≠ [] ∨ ∃ n k, (n, k) ∈ x :: fs ∧ SameButCase n (b! "Sec-WebSocket-Key") ∧ k.length = 24) := by
      intro st2 h a b c
      obtain ⟨i1, i2, i3⟩ := ih st2 st' h
      refine ⟨fun h => ?_, fun h => ?_, fun h => ?_⟩
      · rcases i1 h with h | ⟨n, h1, h2⟩
        · rcases a h with h | ⟨h1, h2⟩
          · exact .inl h
          · exact .inr ⟨x.1, by rw [← h1]; simp, h2⟩
        · exact .inr ⟨n, List.mem_cons_of_mem _ h1, h2⟩
      · rcases i2 h with h | ⟨n, h1, h2⟩
        · rcases b h with h | ⟨h1, h2⟩
          · exact .inl h
          · exact .inr ⟨x.1, by rw [← h1]; simp, h2⟩
        · exact .inr ⟨n, List.mem_cons_of_mem _ h1, h2⟩
      · rcases i3 h with h | ⟨n, k, h1, h2⟩
        · rcases c h with h | ⟨h1, h2⟩
          · exact .inl h
          · exact .inr ⟨x.1, x.2, by simp, h1, h2⟩
        · exact .inr ⟨n, k, List.mem_cons_of_mem _ h1, h2⟩
    unfold hs_headers at h
    simp only [Bool.not_false, Bool.true_and, Bool.false_and, Bool.false_eq_true, if_false] at h
    split at h
    · split at h
      · simp at h
      · exact other st h .inl .inl .inl
    · split at h
      · rename_i hn
        refine other _ h ?_ ?_ ?_
        · split
          · rename_i hv; exact fun _ => .inr ⟨hv, (HttpRequest.name_eq_iff _ _).1 hn⟩
          · exact .inl
        · split <;> exact .inl
        · split <;> exact .inl
      · split at h
        · rename_i hn
          refine other _ h ?_ ?_ ?_
          · split <;> exact .inl
          · split
            · rename_i hv; exact fun _ => .inr ⟨hv, (HttpRequest.name_eq_iff _ _).1 hn⟩
            · exact .inl
          · split <;> exact .inl
        · split at h
          · rename_i hn
            refine other _ h ?_ ?_ ?_
            · split <;> exact .inl
            · split <;> exact .inl
            · split
              · rename_i hv; exact fun _ => .inr ⟨(HttpRequest.name_eq_iff _ _).1 hn, hv⟩
              · exact .inl
          · split at h
            · split at h
              · simp at h
              · exact other _ h .inl .inl .inl
            · exact other st h .inl .inl .inl

theorem handshake_cases (V : Http.Lib) (p p' : Parser) (h : HttpRequest.Headers) (n : Nat) (hh : handshake V p h = some (p', n)) :
    (h.method = b! "OPTIONS" ∧ n = 204) ∨ (h.method ≠ b! "OPTIONS" ∧ n = 101 ∧ p'.wshs = .s_accepted ∧ OffersWebSocket (texts h)) ∨
    (h.method ≠ b! "OPTIONS" ∧ n ≠ 101 ∧ n ≠ 204 ∧ p'.wshs ≠ .s_accepted) := by
  unfold handshake at hh
  split at hh
  · rename_i hm
    split at hh
    · simp at hh
    · simp only [Option.some.injEq, Prod.mk.injEq] at hh; exact .inl ⟨hm, hh.2.symm⟩
  · rename_i hm
    refine .inr ?_
    split at hh
    · simp at hh
    · rename_i q ext hacc
      split at hh
      · rename_i hq
        simp only [Option.some.injEq, Prod.mk.injEq] at hh
        obtain ⟨rfl, rfl⟩ := hh
        refine .inl ⟨hm, rfl, hq, ?_⟩
        unfold accept_handshake_request at hacc
        split at hacc
        · simp at hacc
        · rename_i hp
          have hp : p.wshs = .pending := by simpa using hp
          simp only at hacc
          split at hacc
          · simp only [Option.some.injEq, Prod.mk.injEq] at hacc
            rw [← hacc.1] at hq
            simp [Parser.fail, hp] at hq
          · rename_i st hst
            split at hacc
            · simp only [Option.some.injEq, Prod.mk.injEq] at hacc
              rw [← hacc.1] at hq
              simp [Parser.fail, hp] at hq
            · rename_i hok
              simp only [Bool.or_eq_true, Bool.not_eq_true', decide_eq_true_eq, not_or] at hok
              obtain ⟨s1, s2, s3⟩ := hs_sound V _ _ _ _ hst
              have k : st.key ≠ [] := by intro h0; rw [h0] at hok; simp at hok
              exact ⟨(s1 (by simpa using hok.1.1)).resolve_left (by simp), (s2 (by simpa using hok.1.2)).resolve_left (by simp), (s3 k).resolve_left (by simp)⟩
      · rename_i hq
        refine .inr ⟨hm, ?_⟩
        split at hh
        · simp only [Option.some.injEq, Prod.mk.injEq] at hh
          obtain ⟨rfl, rfl⟩ := hh
          exact ⟨by simp, by simp, hq⟩
        · simp only [Option.some.injEq, Prod.mk.injEq] at hh
          obtain ⟨rfl, rfl⟩ := hh
          exact ⟨by simp, by simp, hq⟩

/-! ### The switch -/

theorem of_snoc (g : Cfg Z) (w : W Z) (t : List HttpServer.Ev) (e : HttpServer.Ev) : W.of g w (t ++ [e]) = (W.of g w t).step g e := by simp [W.of, List.foldl_append]

theorem close_upgraded (g : Cfg Z) (w : W Z) (n : Nat) (r : Bytes) : (w.close g n r).ws.upgraded = w.ws.upgraded := (grows_close_once g.env n r (.refl w.ws)).1

theorem error_upgraded (g : Cfg Z) (w : W Z) (n : Nat) : (w.error g n).ws.upgraded = w.ws.upgraded := by
  unfold W.error
  split
  · rfl
  · exact close_upgraded g _ _ _

theorem complete_upgraded (g : Cfg Z) (w : W Z) (h : HttpRequest.Headers) (e : Bool) : (w.complete g h e).1.ws.upgraded = (w.ws.upgraded || (w.complete g h e).2) := by
  unfold W.complete
  split
  · simp
  · split
    · simp
    · rename_i hu
      have hu : w.ws.upgraded = false := by simpa using hu
      simp only
      split
      · simp [hu]
      · split
        · simp [hu, close_upgraded]
        · simp [hu, Session.push]

/-- Whether a response with status 101 has been sent. -/
def switched (g : Cfg Z) (w : W Z) (t : List HttpServer.Ev) : Bool := (W.of g w t).ws.upgraded

theorem app_syncs (g : Cfg Z) (w : W Z) : Syncs (app g w) (switched g w) := by
  constructor
  case headers =>
    intro t h e
    unfold switched
    rw [of_snoc]
    unfold W.step app
    simp only
    split
    · simp
    · split
      · simp
      · simp [complete_upgraded]
  case other =>
    intro t e he
    unfold switched
    rw [of_snoc]
    unfold W.step
    split
    · rfl
    · cases e with
      | headers h b => exact absurd rfl (he h b)
      | stream b => rfl
      | finish h b e => rfl
      | error b n => exact error_upgraded g _ n
      | reject b n => exact error_upgraded g _ n
      | upgraded d b => exact (grows_stream _ _ _ _).1
  case finish => intros; rfl
  case rejects =>
    intro t h e x hx
    unfold app at hx
    simp only at hx
    split at hx
    · simp at hx
    · split at hx
      · simp only [List.mem_singleton] at hx; subst hx; simp
      · simp at hx
  case type =>
    intro t h e
    left
    unfold app
    simp only
    split
    · rfl
    · split <;> rfl

/-! ### All histories -/

/-- No data of messages, and no message. -/
def NoData (t : List Ws.Ev) : Prop := ∀ op b, .data op b ∉ t ∧ .finish op b ∉ t

theorem close_quiet (env : Env Z) (s : Session Z) (n : Nat) (r : Bytes) : (s.close_once env n r).1.closure_notified = true ∧ (.accepted ∉ s.trace → .accepted ∉ (s.close_once env n r).1.trace) ∧
    (NoData s.trace → NoData (s.close_once env n r).1.trace) := by
  unfold Session.close_once Session.ws_shut_down Session.send_raw
  simp only
  repeat' split
  all_goals (refine ⟨by first | assumption | rfl, ?_, ?_⟩)
  all_goals (intro h; simp_all [Session.push, NoData])

/-- The requests before the acceptance, and the history around it. -/
structure Accepted (w : W Z) : Prop where
  parts : ∃ pre post xs, w.ws.trace = pre ++ .accepted :: post ∧ .accepted ∉ pre ∧ .accepted ∉ post ∧ NoData pre ∧ w.responses = xs ++ [101] ∧ 101 ∉ xs ∧
    ((∀ x ∈ xs, x = 204) → ∀ n r, .close n r ∉ pre)
  request : ∃ h ∈ w.heads, h.is_proxy = false ∧ OffersWebSocket (texts h) ∧ w.addresses = [caddr h]

/-- The three situations. -/
inductive Inv (w : W Z) : Prop
  | before (good : Good w.ws) (up : w.ws.upgraded = false) (resp : 101 ∉ w.responses) (acc : .accepted ∉ w.ws.trace) (quiet : NoData w.ws.trace) (addr : w.addresses = [])
      (shut : w.ws.closure_notified = true → ∃ x ∈ w.responses, x ≠ 204)
  | refused (good : Good w.ws) (up : w.ws.upgraded = true) (resp : ∃ xs, w.responses = xs ++ [101] ∧ 101 ∉ xs) (acc : .accepted ∉ w.ws.trace) (quiet : NoData w.ws.trace) (addr : w.addresses = [])
      (shut : w.ws.closure_notified = true)
  | after (good : Good w.ws) (up : w.ws.upgraded = true) (a : Accepted w)

theorem Inv.mono {w w' : W Z} (h : Inv w) (h1 : w'.ws.trace = w.ws.trace) (h2 : w'.ws.closure_notified = w.ws.closure_notified) (h3 : w'.ws.upgraded = w.ws.upgraded)
    (h4 : w'.responses = w.responses) (h5 : w'.addresses = w.addresses) (h6 : ∃ more, w'.heads = w.heads ++ more) : Inv w' := by
  have hg : Good w.ws → Good w'.ws := by unfold Good Open Shut; rw [h1, h2]; exact id
  cases h with
  | before good up resp acc quiet addr shut => exact .before (hg good) (h3.trans up) (by rw [h4]; exact resp) (by rw [h1]; exact acc) (by rw [h1]; exact quiet) (h5.trans addr) (by rw [h2, h4]; exact shut)
  | refused good up resp acc quiet addr shut => exact .refused (hg good) (h3.trans up) (by rw [h4]; exact resp) (by rw [h1]; exact acc) (by rw [h1]; exact quiet) (h5.trans addr) (h2.trans shut)
  | after good up a =>
    refine .after (hg good) (h3.trans up) ⟨by rw [h1, h4]; exact a.parts, ?_⟩
    obtain ⟨h, m, p, r, s⟩ := a.request
    obtain ⟨more, h6⟩ := h6
    exact ⟨h, by rw [h6]; simp [m], p, r, h5.trans s⟩

theorem inv_complete (g : Cfg Z) (w : W Z) (h : HttpRequest.Headers) (e : Bool) (hp : h.is_proxy = false) (hh : h ∈ w.heads) (hi : Inv w) (hu : w.ws.upgraded = false) : Inv (w.complete g h e).1 := by
  cases hi with
  | refused _ up => rw [hu] at up; simp at up
  | after _ up => rw [hu] at up; simp at up
  | before good up resp acc quiet addr shut =>
  have hi : Inv w := .before good up resp acc quiet addr shut
  have hin := hh
  clear hh
  unfold W.complete
  split
  · exact hi.mono rfl rfl rfl rfl rfl ⟨[], by simp⟩
  · rename_i p n hh
    rw [if_neg (by simp [hu])]
    simp only
    have hg : ∀ u, Good ({ w.ws with parser := p, upgraded := u } : Session Z) := fun u => good
    rcases handshake_cases _ _ _ _ _ hh with ⟨hm, rfl⟩ | ⟨hm, rfl, hs, ho⟩ | ⟨hm, h1, h2, hs⟩
    · rw [if_pos hm]
      refine .before (hg _) (by simp) (by simp [resp]) acc quiet addr ?_
      intro hc
      obtain ⟨x, hx, hx'⟩ := shut hc
      exact ⟨x, by simp [hx], hx'⟩
    · rw [if_neg hm]
      split
      · -- the connection is to be closed
        obtain ⟨c1, c2, c3⟩ := close_quiet g.env ({ w.ws with parser := p, upgraded := decide (101 = 101) } : Session Z) 1002 (Ws.descBytes p.error_desc)
        refine .refused (.inr (shut_close_once _ _ _ _ (hg _))) ?_ ⟨w.responses, rfl, resp⟩ (c2 acc) (c3 quiet) addr c1
        rw [close_upgraded]; simp
      · refine .after (good_push _ _ (by exact good) rfl) (by simp [Session.push]) ⟨⟨w.ws.trace, [], w.responses, rfl, acc, by simp, quiet, rfl, resp, ?_⟩, ⟨h, hin, hp, ho, by simp [addr]⟩⟩
        intro hx n r hc
        have hcl : w.ws.closure_notified = true := by
          rcases good with good | good
          · have := good.2 _ hc; simp [Ev.isClose] at this
          · exact good.1
        obtain ⟨x, hx1, hx2⟩ := shut hcl
        exact hx2 (hx x hx1)
    · rw [if_neg hm, if_pos (by simp [hs])]
      obtain ⟨c1, c2, c3⟩ := close_quiet g.env ({ w.ws with parser := p, upgraded := decide (n = 101) } : Session Z) 1002 (Ws.descBytes p.error_desc)
      refine .before (.inr (shut_close_once _ _ _ _ (hg _))) ?_ ?_ (c2 acc) (c3 quiet) addr (fun _ => ⟨n, by simp [W.close], h2⟩)
      · rw [close_upgraded]; simp [h1]
      · simp [W.close, resp, Ne.symm h1]

theorem inv_error (g : Cfg Z) (w : W Z) (n : Nat) (h1 : n ≠ 101) (h2 : n ≠ 204) (hi : Inv w) : Inv (w.error g n) := by
  unfold W.error
  split
  · exact hi.mono rfl rfl rfl rfl rfl ⟨[], by simp⟩
  · rename_i hu
    have hu : w.ws.upgraded = false := by simpa using hu
    cases hi with
    | refused _ up => rw [hu] at up; simp at up
    | after _ up => rw [hu] at up; simp at up
    | before good up resp acc quiet addr shut =>
      obtain ⟨c1, c2, c3⟩ := close_quiet g.env w.ws 1006 (Ws.descBytes (some "handshake rejected by HTTP error"))
      refine .before (.inr (shut_close_once _ _ _ _ good)) ?_ ?_ (c2 acc) (c3 quiet) addr (fun _ => ⟨n, by simp [W.close], h2⟩)
      · rw [close_upgraded]; exact hu
      · simp [W.close, resp, Ne.symm h1]

theorem inv_step (g : Cfg Z) (w : W Z) (e : HttpServer.Ev) (hi : Inv w) (ht : Timely (fun _ => w.ws.upgraded) [] e) : Inv (w.step g e) := by
  unfold W.step
  split
  · exact hi
  · have hi' : Inv ({ w with calls := w.calls + 1 } : W Z) := hi.mono rfl rfl rfl rfl rfl ⟨[], by simp⟩
    cases e with
    | headers h b =>
      simp only
      have hi'' : Inv ({ w with calls := w.calls + 1, heads := w.heads ++ [h] } : W Z) := hi.mono rfl rfl rfl rfl rfl ⟨[h], rfl⟩
      split
      · exact hi''
      · rename_i hp
        exact inv_complete g _ h b (by simpa using hp) (by simp) hi'' ht
    | stream b => exact hi'
    | finish h b e => exact hi'
    | error b n => exact inv_error g _ n ht.1 ht.2 hi'
    | reject b n => exact inv_error g _ n ht.1 ht.2 hi'
    | upgraded d b =>
      have ht : w.ws.upgraded = true := ht
      simp only
      cases hi with
      | before _ up => rw [ht] at up; simp at up
      | refused good up resp acc quiet addr shut =>
        rw [stream_closed _ _ _ _ shut]
        exact .refused good up resp acc quiet addr shut
      | after good up a =>
        have hg := grows_stream g.env (g.addr (w.calls + 1)) w.ws d
        refine .after (stream_good _ _ _ _ _ good) (hg.1.trans up) ⟨?_, a.request⟩
        obtain ⟨pre, post, xs, a1, a2, a3, a4, a5⟩ := a.parts
        obtain ⟨-, more, m1, m2⟩ := hg
        exact ⟨pre, post ++ more, xs, by simp only; rw [m1, a1]; simp, a2, by simp [a3, m2], a4, a5⟩

theorem inv_all (g : Cfg Z) (w : W Z) (hi : Inv w) (t : List HttpServer.Ev) (h : InStep (switched g w) t) : Inv (W.of g w t) := by
  have gen : ∀ n, n ≤ t.length → Inv (W.of g w (t.take n)) := by
    intro n
    induction n with
    | zero => intro _; exact hi
    | succ n ih =>
      intro hn
      have hn' : n < t.length := hn
      rw [List.take_succ_eq_append_getElem hn', of_snoc]
      refine inv_step g _ _ (ih (by omega)) ?_
      have := h (t.take n) t[n] (t.drop (n + 1)) (by rw [List.getElem_cons_drop, List.take_append_drop])
      revert this
      cases t[n] <;> exact id
  have := gen t.length (by omega)
  rwa [List.take_length] at this

/-- No close, data or message comes after a close. -/
theorem good_order {s : Session Z} (h : Good s) {pre post : List Ws.Ev} {e : Ws.Ev} (ht : s.trace = pre ++ e :: post) (he : e.isCallback = true) (n : Nat) (r : Bytes) : .close n r ∉ pre := by
  intro hc
  rcases h with h | ⟨-, a, st, r', b, h, ha, hb⟩
  · have := h.2 (.close n r) (by rw [ht]; simp [hc]); simp [Ev.isClose] at this
  · rw [ht] at h
    have hna : ¬ .close n r ∈ a := fun h => by have := ha _ h; simp [Ev.isClose] at this
    rcases List.append_eq_append_iff.1 h with ⟨u, h1, h2⟩ | ⟨u, h1, h2⟩
    · exact hna (by rw [h1]; simp [hc])
    · cases u with
      | nil => rw [List.append_nil] at h1; exact hna (h1 ▸ hc)
      | cons x u =>
        simp only [List.cons_append, List.cons.injEq] at h2
        have := hb e (by rw [h2.2]; simp)
        rw [he] at this; simp at this

theorem Inv.good {w : W Z} (h : Inv w) : Good w.ws := by cases h <;> assumption

theorem Inv.once {w : W Z} (h : Inv w) : w.ws.trace.count .accepted ≤ 1 := by
  cases h with
  | before good up resp acc => rw [List.count_eq_zero_of_not_mem acc]; simp
  | refused good up resp acc => rw [List.count_eq_zero_of_not_mem acc]; simp
  | after good up a =>
    obtain ⟨pre, post, xs, a1, a2, a3, -⟩ := a.parts
    rw [a1, List.count_append, List.count_cons_self, List.count_eq_zero_of_not_mem a2, List.count_eq_zero_of_not_mem a3]; simp

theorem Inv.accepted {w : W Z} (h : Inv w) (ha : .accepted ∈ w.ws.trace) : Accepted w := by
  cases h with
  | before good up resp acc => exact absurd ha acc
  | refused good up resp acc => exact absurd ha acc
  | after good up a => exact a

theorem Inv.messages {w : W Z} (h : Inv w) {pre post : List Ws.Ev} {e : Ws.Ev} (ht : w.ws.trace = pre ++ e :: post) (he : ∃ op b, e = .data op b ∨ e = .finish op b) :
    .accepted ∈ pre := by
  obtain ⟨op, b, he⟩ := he
  have no : ¬ NoData w.ws.trace := by
    intro h; rw [ht] at h
    have := h op b
    rcases he with rfl | rfl <;> simp at this
  cases h with
  | before good up resp acc quiet => exact absurd quiet no
  | refused good up resp acc quiet => exact absurd quiet no
  | after good up a =>
    obtain ⟨pre', post', xs, a1, a2, a3, a4, -⟩ := a.parts
    rw [a1] at ht
    rcases List.append_eq_append_iff.1 ht with ⟨u, h1, h2⟩ | ⟨u, h1, h2⟩
    · cases u with
      | nil =>
        simp only [List.nil_append, List.cons.injEq] at h2
        rcases he with rfl | rfl <;> simp at h2
      | cons x u =>
        simp only [List.cons_append, List.cons.injEq] at h2
        rw [h1, ← h2.1]; simp
    · exfalso
      cases u with
      | nil =>
        simp only [List.nil_append, List.cons.injEq] at h2
        rcases he with rfl | rfl <;> simp at h2
      | cons x u =>
        simp only [List.cons_append, List.cons.injEq] at h2
        have := a4 op b
        rw [h1, ← h2.1] at this
        rcases he with rfl | rfl <;> simp at this

theorem inv_start (g : Cfg Z) : Inv (W.start g) := .before (.inl ⟨rfl, by simp [W.start]⟩) rfl (by simp [W.start]) (by simp [W.start]) (by intro _ _; simp [W.start]) rfl (by simp [W.start])

theorem inv_reads (g : Cfg Z) (c : HttpRequest.Cfg) {L : Lib} (w w' : W Z) (hi : Inv w) (s : Sess L) (h1 : s.trace = []) (h2 : s.ack = w.ws.upgraded) (reads : List Act) (hs : .switch ∉ reads)
    (h : w.reads g c s reads = some w') : Inv w' := by
  unfold W.reads at h
  split at h
  · simp at h
  · rename_i s' b hr
    have h3 := sync_run (app_syncs g w) (c := c) reads hs s [] ⟨by rw [h1]; exact h2, by rw [h1]; intro pre e post h; simp at h⟩ _ hr
    simp only [Option.some.injEq] at h
    subst h
    exact (inv_all g w hi _ h3.2).mono rfl rfl rfl rfl rfl ⟨[], by simp⟩

theorem inv_again (g : Cfg Z) (c : HttpRequest.Cfg) {L : Lib} (more : List (Again L)) : ∀ (w w' : W Z), Inv w → (∀ x ∈ more, .switch ∉ x.reads) → w.again g c more = some w' → Inv w' := by
  induction more with
  | nil => intro w w' hi _ h; simp only [W.again, Option.some.injEq] at h; subst h; exact hi
  | cons x more ih =>
    intro w w' hi hs h
    unfold W.again at h
    split at h
    · simp at h
    · split at h
      · simp at h
      · rename_i w1 hw
        have hi' : Inv ({ w with threw := false } : W Z) := hi.mono rfl rfl rfl rfl rfl ⟨[], by simp⟩
        exact ih w1 w' (inv_reads g c _ _ hi' ({ p := x.p, st := x.st, ack := w.ws.upgraded } : Sess L) rfl rfl x.reads (hs x (by simp)) hw) (fun y hy => hs y (List.mem_cons_of_mem _ hy)) h

/-- All calls before the first exception return. -/
theorem serve_some (g : Cfg Z) (c : HttpRequest.Cfg) (L : Lib) (body : L.σ → Prop) (hL : LibOk L body) (reads : List Act) : ∃ w, serve g c L reads = some w := by
  obtain ⟨s, h1, -⟩ := run_spec (A := app g (W.start g)) (c := c) hL ({} : Sess L) reads (inv_init hL)
  exact ⟨_, by unfold serve W.reads; rw [h1]⟩

/-- Every session keeps this invariant. -/
theorem serve_inv (g : Cfg Z) (c : HttpRequest.Cfg) (L : Lib) (reads : List Act) (hs : .switch ∉ reads) (more : List (Again L)) (hm : ∀ x ∈ more, .switch ∉ x.reads) (w : W Z)
    (h : serveAll g c L reads more = some w) : Inv w := by
  unfold serveAll at h
  split at h
  · simp at h
  · rename_i w1 hw
    exact inv_again g c more w1 w (inv_reads g c _ _ (inv_start g) ({} : Sess L) rfl rfl reads hs hw) hm h

end Verif.WsServer
