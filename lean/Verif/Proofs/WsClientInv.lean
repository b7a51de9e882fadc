import Verif.Proofs.WsClient
/-! # WebSocket client sessions over HTTP client sessions: what holds in all histories -/
namespace Verif.WsClient
open Verif.HttpClient Verif.HttpLib Verif.Spec Verif.Spec.Client Verif.Ws
open Verif.WsServer (NoData close_quiet good_order)

variable {Z : Type}

theorem of_snoc (g : Cfg Z) (w : W Z) (t : List HttpClient.Ev) (e : HttpClient.Ev) : W.of g w (t ++ [e]) = (W.of g w t).step g e := by simp [W.of, List.foldl_append]

theorem close_once_parser (env : Env Z) (s : Session Z) (n : Nat) (r : Bytes) : (s.close_once env n r).1.parser = s.parser := by
  unfold Session.close_once Session.ws_shut_down Session.send_raw
  simp only
  repeat' split
  all_goals rfl

theorem close_upgraded (g : Cfg Z) (w : W Z) (n : Nat) (r : Bytes) : (w.close g n r).ws.upgraded = w.ws.upgraded := (grows_close_once g.env n r (.refl w.ws)).1

theorem shaken_upgraded (g : Cfg Z) (w : W Z) (p : Ws.Parser) : (w.shaken g p).ws.upgraded = w.ws.upgraded := by
  unfold W.shaken
  simp only
  split
  · rw [close_upgraded]
  · rfl

theorem switched_snoc (b : Bool) (t : List HttpClient.Ev) (e : HttpClient.Ev) : switched b (t ++ [e]) = (switched b t || match e with | .finish h _ => h.status == 101 | _ => false) := by
  unfold switched
  rw [List.any_append, ← Bool.or_assoc]
  cases e <;> simp

/-- The class knows whether the protocol has been switched. -/
theorem up_step (g : Cfg Z) (w : W Z) (b : Bool) (t : List HttpClient.Ev) (e : HttpClient.Ev) (hi : w.threw = false → w.ws.upgraded = switched b t) :
    (w.step g e).threw = false → (w.step g e).ws.upgraded = switched b (t ++ [e]) := by
  rw [switched_snoc]
  unfold W.step
  split
  · rename_i h; intro h'; rw [h] at h'; simp at h'
  · rename_i h
    have hi := hi (by simpa using h)
    cases e with
    | finish hd b =>
      simp only
      unfold W.finish
      simp only
      split
      · intro h'; simp at h'
      · split
        · rename_i h; intro h'; rw [h] at h'; simp at h'
        · intro _; simp only [shaken_upgraded, hi]
    | upgraded d b => intro _; simp only [Bool.or_false]; rw [← hi]; exact (grows_stream _ _ _ _).1
    | shut => intro _; simp only [Bool.or_false]; exact hi
    | _ => intro _; simp only [Bool.or_false]; exact hi

/-- The responses before the acceptance, and the history around it. -/
structure Accepted (g : Cfg Z) (w : W Z) : Prop where
  parts : ∃ pre post xs n ys, w.ws.trace = pre ++ .accepted :: post ∧ .accepted ∉ pre ∧ .accepted ∉ post ∧ NoData pre ∧ w.statuses = xs ++ n :: ys ∧ (xs = [] → ∀ n r, .close n r ∉ pre)
  response : ∃ h ∈ w.heads, AnswersWebSocket g.accept (texts h)

/-- The three situations. -/
inductive Inv (g : Cfg Z) (w : W Z) : Prop
  | before (good : Good w.ws) (up : w.ws.upgraded = false) (acc : .accepted ∉ w.ws.trace) (quiet : NoData w.ws.trace) (shut : w.ws.closure_notified = true → w.statuses ≠ [])
  | refused (good : Good w.ws) (up : w.ws.upgraded = true) (acc : .accepted ∉ w.ws.trace) (quiet : NoData w.ws.trace) (shut : w.ws.closure_notified = true)
  | after (good : Good w.ws) (up : w.ws.upgraded = false → w.ws.parser.wshs = .c_accepted) (a : Accepted g w)

theorem Accepted.mono {g : Cfg Z} {w w' : W Z} (h : Accepted g w) (h1 : ∃ more, w'.ws.trace = w.ws.trace ++ more ∧ .accepted ∉ more)
    (h4 : ∃ more, w'.statuses = w.statuses ++ more) (h5 : ∃ more, w'.heads = w.heads ++ more) : Accepted g w' := by
  obtain ⟨more, m1, m2⟩ := h1
  obtain ⟨ms, m3⟩ := h4
  obtain ⟨mh, m4⟩ := h5
  obtain ⟨pre, post, xs, n, ys, a1, a2, a3, a4, a5, a6⟩ := h.parts
  obtain ⟨hd, m, r⟩ := h.response
  exact ⟨⟨pre, post ++ more, xs, n, ys ++ ms, by rw [m1, a1]; simp, a2, by simp [a3, m2], a4, by rw [m3, a5]; simp, a6⟩, hd, by rw [m4]; simp [m], r⟩

theorem Inv.mono {g : Cfg Z} {w w' : W Z} (h : Inv g w) (h1 : w'.ws = w.ws) (h4 : ∃ more, w'.statuses = w.statuses ++ more) (h5 : ∃ more, w'.heads = w.heads ++ more) : Inv g w' := by
  cases h with
  | before good up acc quiet shut =>
    refine .before (by rw [h1]; exact good) (by rw [h1]; exact up) (by rw [h1]; exact acc) (by rw [h1]; exact quiet) ?_
    obtain ⟨ms, h4⟩ := h4
    rw [h1, h4]
    intro h h0
    exact shut h (List.append_eq_nil_iff.1 h0).1
  | refused good up acc quiet shut => exact .refused (by rw [h1]; exact good) (by rw [h1]; exact up) (by rw [h1]; exact acc) (by rw [h1]; exact quiet) (by rw [h1]; exact shut)
  | after good up a => exact .after (by rw [h1]; exact good) (by rw [h1]; exact up) (a.mono ⟨[], by rw [h1]; simp, by simp⟩ h4 h5)

theorem inv_finish (g : Cfg Z) (w : W Z) (h : HttpResponse.Headers) (hi : Inv g w) (hu : w.ws.upgraded = false) : Inv g (w.finish g h) := by
  unfold W.finish
  simp only
  split
  · exact hi.mono rfl ⟨_, rfl⟩ ⟨_, rfl⟩
  · rename_i p hp
    obtain ⟨hw, hc⟩ := response_cases _ _ _ _ _ hp
    cases hi with
    | refused _ up => rw [hu] at up; simp at up
    | after good up a => have := up hu; rw [this] at hw; simp at hw
    | before good up acc quiet shut =>
      unfold W.shaken
      simp only
      rcases hc with ⟨hc, ha⟩ | hc
      · have e1 : ¬ p.wshs ≠ .c_accepted := by simp [hc]
        simp only [if_neg e1]
        have key : Accepted g ({ w with ws := ({ w.ws with parser := p, pmce := if p.pmce_send_window_bits ≠ 0 then some (g.inflator, []) else w.ws.pmce } : Session Z).push .accepted, heads := w.heads ++ [h], statuses := w.statuses ++ [h.status] } : W Z) := by
          refine ⟨⟨w.ws.trace, [], w.statuses, h.status, [], rfl, acc, by simp, quiet, rfl, ?_⟩, h, by simp, ha⟩
          intro h0 n r hcl
          rcases good with good | good
          · have := good.2 _ hcl; simp [Ev.isClose] at this
          · exact shut good.1 h0
        split
        · exact .after (good_push _ _ (by exact good) rfl) (fun _ => hc) ⟨key.parts, key.response⟩
        · exact .after (good_push _ _ (by exact good) rfl) (fun _ => hc) ⟨key.parts, key.response⟩
      · have e1 : p.wshs ≠ .c_accepted := by simp [hc]
        simp only [if_pos e1]
        obtain ⟨c1, c2, c3⟩ := close_quiet g.env ({ w.ws with parser := p } : Session Z) 1002 (Ws.descBytes p.error_desc)
        have hg : Good ((({ w.ws with parser := p } : Session Z)).close_once g.env 1002 (Ws.descBytes p.error_desc)).1 := .inr (shut_close_once _ _ _ _ (by exact good))
        split
        · exact .before hg (by rw [close_upgraded]; exact hu) (c2 acc) (c3 quiet) (fun _ => by simp [W.close])
        · by_cases h1 : h.status = 101
          · exact .refused hg (by simp [h1]) (c2 acc) (c3 quiet) c1
          · refine .before hg ?_ (c2 acc) (c3 quiet) (fun _ => by simp [W.close])
            have : (h.status == 101) = false := by simp [h1]
            simp only [this, Bool.or_false]
            rw [close_upgraded]
            exact hu

theorem inv_step (g : Cfg Z) (w : W Z) (b : Bool) (t : List HttpClient.Ev) (e : HttpClient.Ev) (hi : Inv g w) (hu : w.threw = false → w.ws.upgraded = switched b t) (ht : Timely b t e) : Inv g (w.step g e) := by
  unfold W.step
  split
  · exact hi
  · rename_i h
    have hu := hu (by simpa using h)
    have hi' : Inv g ({ w with calls := w.calls + 1 } : W Z) := hi.mono rfl ⟨[], by simp⟩ ⟨[], by simp⟩
    cases e with
    | headers h => exact hi'
    | stream b => exact hi'
    | abort => exact hi'
    | finish h b => exact inv_finish g _ h hi' (hu.trans ht)
    | shut =>
      cases hi with
      | before good up acc quiet shut => exact .before (good_push _ _ good rfl) up (by simp [Session.push, acc]) (by intro op b; have := quiet op b; simp [Session.push, this]) shut
      | refused good up acc quiet shut => exact .refused (good_push _ _ good rfl) up (by simp [Session.push, acc]) (by intro op b; have := quiet op b; simp [Session.push, this]) shut
      | after good up a => exact .after (good_push _ _ good rfl) up (a.mono ⟨[.shut_down], rfl, by simp⟩ ⟨[], by simp⟩ ⟨[], by simp⟩)
    | upgraded d b =>
      have ht : w.ws.upgraded = true := hu.trans ht
      simp only
      cases hi with
      | before _ up => rw [ht] at up; simp at up
      | refused good up acc quiet shut =>
        rw [stream_closed _ _ _ _ shut]
        exact .refused good up acc quiet shut
      | after good up a =>
        have hg := grows_stream g.env (g.addr (w.calls + 1)) w.ws d
        exact .after (stream_good _ _ _ _ _ good) (fun h => by simp only at h; rw [hg.1, ht] at h; simp at h) (a.mono hg.2 ⟨[], by simp⟩ ⟨[], by simp⟩)

theorem inv_all (g : Cfg Z) (w : W Z) (hi : Inv g w) (t : List HttpClient.Ev) (h : InStep w.ws.upgraded t) : Inv g (W.of g w t) := by
  have gen : ∀ n, n ≤ t.length → Inv g (W.of g w (t.take n)) ∧ ((W.of g w (t.take n)).threw = false → (W.of g w (t.take n)).ws.upgraded = switched w.ws.upgraded (t.take n)) := by
    intro n
    induction n with
    | zero => intro _; exact ⟨hi, fun _ => by simp [W.of, switched]⟩
    | succ n ih =>
      intro hn
      have hn' : n < t.length := hn
      rw [List.take_succ_eq_append_getElem hn', of_snoc]
      obtain ⟨i1, i2⟩ := ih (by omega)
      refine ⟨inv_step g _ _ _ _ i1 i2 (h _ _ (t.drop (n + 1)) ?_), up_step g _ _ _ _ i2⟩
      rw [List.getElem_cons_drop, List.take_append_drop]
  have := (gen t.length (by omega)).1
  rwa [List.take_length] at this

theorem Inv.good {g : Cfg Z} {w : W Z} (h : Inv g w) : Good w.ws := by cases h <;> assumption

theorem Inv.once {g : Cfg Z} {w : W Z} (h : Inv g w) : w.ws.trace.count .accepted ≤ 1 := by
  cases h with
  | before good up acc => rw [List.count_eq_zero_of_not_mem acc]; simp
  | refused good up acc => rw [List.count_eq_zero_of_not_mem acc]; simp
  | after good up a =>
    obtain ⟨pre, post, xs, n, ys, a1, a2, a3, -⟩ := a.parts
    rw [a1, List.count_append, List.count_cons_self, List.count_eq_zero_of_not_mem a2, List.count_eq_zero_of_not_mem a3]; simp

theorem Inv.accepted {g : Cfg Z} {w : W Z} (h : Inv g w) (ha : .accepted ∈ w.ws.trace) : Accepted g w := by
  cases h with
  | before good up acc => exact absurd ha acc
  | refused good up acc => exact absurd ha acc
  | after good up a => exact a

theorem Inv.messages {g : Cfg Z} {w : W Z} (h : Inv g w) {pre post : List Ws.Ev} {e : Ws.Ev} (ht : w.ws.trace = pre ++ e :: post) (he : ∃ op b, e = .data op b ∨ e = .finish op b) :
    .accepted ∈ pre := by
  obtain ⟨op, b, he⟩ := he
  have no : ¬ NoData w.ws.trace := by
    intro h; rw [ht] at h
    have := h op b
    rcases he with rfl | rfl <;> simp at this
  cases h with
  | before good up acc quiet => exact absurd quiet no
  | refused good up acc quiet => exact absurd quiet no
  | after good up a =>
    obtain ⟨pre', post', xs, n, ys, a1, a2, a3, a4, -⟩ := a.parts
    rw [a1] at ht
    rcases List.append_eq_append_iff.1 ht with ⟨u, h1, h2⟩ | ⟨u, h1, h2⟩
    · cases u with
      | nil =>
        simp only [List.nil_append, List.cons.injEq] at h2
        rcases he with rfl | rfl <;> simp at h2
      | cons x u =>
        simp only [List.cons_append, List.cons.injEq] at h2
        rw [h1, ← h2.1]; simp
    · exfalso
      cases u with
      | nil =>
        simp only [List.nil_append, List.cons.injEq] at h2
        rcases he with rfl | rfl <;> simp at h2
      | cons x u =>
        simp only [List.cons_append, List.cons.injEq] at h2
        have := a4 op b
        rw [h1, ← h2.1] at this
        rcases he with rfl | rfl <;> simp at this

theorem inv_start (g : Cfg Z) : Inv g (W.start g) := .before (.inl ⟨rfl, by simp [W.start]⟩) rfl (by simp [W.start]) (by intro _ _; simp [W.start]) (by simp [W.start])

theorem inv_reads (g : Cfg Z) (c : HttpRequest.Cfg) {L : Lib} (w w' : W Z) (hi : Inv g w) (s : Sess L) (h1 : s.trace = []) (h2 : s.ack = w.ws.upgraded) (reads : List Act)
    (h : w.reads g c s reads = some w') : Inv g w' := by
  unfold W.reads at h
  split at h
  · simp at h
  · rename_i s' b hr
    have h3 := sync_run (A := app) (c := c) (b := w.ws.upgraded) (fun _ _ => .inl rfl) reads s [] ⟨by rw [h1]; simp [switched, h2], by rw [h1]; intro pre e post h; simp at h⟩ _ hr
    simp only [Option.some.injEq] at h
    subst h
    exact (inv_all g w hi _ h3.2).mono rfl ⟨[], by simp⟩ ⟨[], by simp⟩

theorem inv_again (g : Cfg Z) (c : HttpRequest.Cfg) {L : Lib} (more : List (Again L)) : ∀ (w w' : W Z), Inv g w → w.again g c more = some w' → Inv g w' := by
  induction more with
  | nil => intro w w' hi h; simp only [W.again, Option.some.injEq] at h; subst h; exact hi
  | cons x more ih =>
    intro w w' hi h
    unfold W.again at h
    split at h
    · simp at h
    · split at h
      · simp at h
      · rename_i w1 hw
        have hi' : Inv g ({ w with threw := false } : W Z) := hi.mono rfl ⟨[], by simp⟩ ⟨[], by simp⟩
        exact ih w1 w' (inv_reads g c _ _ hi' ({ p := x.p, st := x.st, ack := w.ws.upgraded } : Sess L) rfl rfl x.reads hw) h

/-- All calls before the first exception return. -/
theorem connect_some (g : Cfg Z) (c : HttpRequest.Cfg) (L : Lib) (body : L.σ → Prop) (hL : ReplyLib L body) (reads : List Act) : ∃ w, connect g c L reads = some w := by
  obtain ⟨s, h1, -⟩ := run_spec (A := app) (c := c) hL ({} : Sess L) reads (inv_init hL)
  exact ⟨_, by unfold connect W.reads; rw [h1]⟩

/-- Every session keeps this invariant. -/
theorem connect_inv (g : Cfg Z) (c : HttpRequest.Cfg) (L : Lib) (reads : List Act) (more : List (Again L)) (w : W Z) (h : connectAll g c L reads more = some w) : Inv g w := by
  unfold connectAll at h
  split at h
  · simp at h
  · rename_i w1 hw
    exact inv_again g c more w1 w (inv_reads g c _ _ (inv_start g) ({} : Sess L) rfl rfl reads hw) h

end Verif.WsClient
