import Verif.Proofs.EasyHws
import Verif.Proofs.HttpServerAgree
import Verif.Proofs.HttpServerBare
import Verif.Proofs.WsServer
/-! # Plain requests to easy HTTP and WebSocket servers -/
namespace Verif.EasyHws
open Verif.Easy Verif.EasyNet Verif.Spec
open Verif.EasyWs (event events SMore WMsg)
open Verif.HttpLib (Lib)
open Verif.HttpServer

variable {Z : Type} {L : Lib}

theorem plain_of {h : HttpRequest.Headers} (hp : IsPlain h) : route h ≠ .shake ∧ route h ≠ .other ∧ plain h = [asked h] := by
  have hhead : ∀ h : HttpRequest.Headers, h.method = b! "HEAD" → route h = .head := by
    intro h hm
    unfold route
    rw [hm, if_neg (by decide), if_neg (by decide), if_pos rfl]
  have hget : ∀ h : HttpRequest.Headers, h.method = b! "GET" → (∀ r ∈ h.headers, ¬ SameButCase r.1 (b! "Upgrade")) → route h = .get := by
    intro h hm hu
    unfold route
    rw [hm, if_neg (by decide), if_pos rfl, if_neg]
    intro hc
    obtain ⟨r, hr, hn⟩ := List.any_eq_true.mp hc
    exact hu r hr ((HttpRequest.name_eq_iff _ _).1 hn)
  rcases hp.2 with hm | ⟨hm, hu⟩
  · have hr := hhead h hm
    refine ⟨by simp [hr], by simp [hr], ?_⟩
    unfold plain asked
    rw [hr, if_pos hm]; rfl
  · have hr := hget h hm hu
    refine ⟨by simp [hr], by simp [hr], ?_⟩
    unfold plain asked
    rw [hr, if_neg (by rw [hm]; decide)]; rfl

/-- The heads of requests in a history. -/
def headsOf (t : List Ev) : List HttpRequest.Headers := t.filterMap fun | .headers h _ => some h | _ => none

theorem heads_observed (A : App) (t : List Ev) : ∀ past acc, headsOf (observed A past acc t) = headsOf t := by
  induction t with
  | nil => intro _ _; rfl
  | cons e t ih =>
    intro past acc
    cases e with
    | headers h k => show h :: headsOf (observed A _ _ t) = h :: headsOf t; rw [ih]
    | stream b => exact ih _ _
    | upgraded d k => exact ih _ _
    | finish h b k => exact ih _ _
    | error b n => exact ih _ _
    | reject b n => exact ih _ _

theorem heads_calls (rs : List Request) : headsOf (rs.flatMap Request.calls) = rs.map Request.headers := by
  induction rs with
  | nil => rfl
  | cons r rs ih =>
    rw [List.flatMap_cons]
    unfold headsOf at ih ⊢
    rw [List.filterMap_append, ih]
    rfl

/-- Events of plain requests. -/
def Calm (t : List Ev) : Prop := ∀ e ∈ t, (∃ h k, e = .headers h k ∧ IsPlain h) ∨ (∃ b, e = .stream b) ∨ ∃ h b k, e = .finish h b k

theorem calm_of (A : App) (rs : List Request) (hp : ∀ r ∈ rs, IsPlain r.headers) (t : List Ev) (h : observed A [] [] t = rs.flatMap Request.calls) (hu : ∀ d e, .upgraded d e ∉ t) : Calm t := by
  have sub : ∀ (t : List Ev) past acc, ∀ e ∈ t, (∃ b, e = .stream b) ∨ (∃ h b k, e = .finish h b k) ∨ (∃ d k, e = .upgraded d k) ∨ e ∈ observed A past acc t := by
    intro t
    induction t with
    | nil => intro _ _ e he; cases he
    | cons x t ih =>
      intro past acc e he
      rcases List.mem_cons.mp he with rfl | he'
      · cases e with
        | stream b => exact .inl ⟨_, rfl⟩
        | finish h b k => exact .inr (.inl ⟨_, _, _, rfl⟩)
        | upgraded d k => exact .inr (.inr (.inl ⟨_, _, rfl⟩))
        | headers h k => exact .inr (.inr (.inr (List.mem_cons_self ..)))
        | error b n => exact .inr (.inr (.inr (List.mem_cons_self ..)))
        | reject b n => exact .inr (.inr (.inr (List.mem_cons_self ..)))
      · cases x with
        | stream b => exact ih _ _ e he'
        | upgraded d k => exact ih _ _ e he'
        | finish h b k =>
          rcases ih (past ++ [.finish h b k]) [] e he' with h | h | h | h
          · exact .inl h
          · exact .inr (.inl h)
          · exact .inr (.inr (.inl h))
          · exact .inr (.inr (.inr (List.mem_cons_of_mem _ h)))
        | headers h k =>
          rcases ih (past ++ [.headers h k]) acc e he' with h | h | h | h
          · exact .inl h
          · exact .inr (.inl h)
          · exact .inr (.inr (.inl h))
          · exact .inr (.inr (.inr (List.mem_cons_of_mem _ h)))
        | error b n =>
          rcases ih (past ++ [.error b n]) acc e he' with h | h | h | h
          · exact .inl h
          · exact .inr (.inl h)
          · exact .inr (.inr (.inl h))
          · exact .inr (.inr (.inr (List.mem_cons_of_mem _ h)))
        | reject b n =>
          rcases ih (past ++ [.reject b n]) acc e he' with h | h | h | h
          · exact .inl h
          · exact .inr (.inl h)
          · exact .inr (.inr (.inl h))
          · exact .inr (.inr (.inr (List.mem_cons_of_mem _ h)))
  intro e he
  rcases sub t [] [] e he with ⟨b, rfl⟩ | ⟨x, b, k, rfl⟩ | ⟨d, k, rfl⟩ | hm
  · exact .inr (.inl ⟨_, rfl⟩)
  · exact .inr (.inr ⟨_, _, _, rfl⟩)
  · exact absurd he (hu d k)
  · rw [h] at hm
    obtain ⟨r, hr, hm⟩ := List.mem_flatMap.mp hm
    simp only [Request.calls, List.mem_cons, List.not_mem_nil, or_false] at hm
    rcases hm with rfl | rfl
    · exact .inl ⟨_, _, rfl, hp r hr⟩
    · exact .inr (.inr ⟨_, _, _, rfl⟩)

/-- Plain requests are pushed, and nothing else happens. -/
theorem of_calm (g : WsServer.Cfg Z) (t : List Ev) : ∀ s : H Z, Calm t → s.w.threw = false →
    ∃ hs k, H.of g s t = { w := { s.w with heads := hs, calls := k }, log := s.log ++ (headsOf t).map asked } := by
  induction t with
  | nil => intro s _ _; exact ⟨s.w.heads, s.w.calls, by simp [H.of, headsOf]⟩
  | cons e t ih =>
    intro s hc ht
    have one : ∃ hs k, s.step g e = { w := { s.w with heads := hs, calls := k }, log := s.log ++ (headsOf [e]).map asked } := by
      rcases hc e (by simp) with ⟨h, k, rfl, hp⟩ | ⟨b, rfl⟩ | ⟨h, b, k, rfl⟩
      · obtain ⟨h1, h2, h3⟩ := plain_of hp
        refine ⟨s.w.heads ++ [h], s.w.calls + 1, ?_⟩
        unfold H.step
        simp only
        rw [if_neg (by simp [ht]), if_neg (by simp [hp.1]), if_neg h1, h3]
        rfl
      · refine ⟨s.w.heads, s.w.calls + 1, ?_⟩
        unfold H.step H.take WsServer.W.step
        simp [ht, events, headsOf]
      · refine ⟨s.w.heads, s.w.calls + 1, ?_⟩
        unfold H.step H.take WsServer.W.step
        simp [ht, events, headsOf]
    obtain ⟨hs, k, h1⟩ := one
    obtain ⟨hs', k', h2⟩ := ih (s.step g e) (fun x hx => hc x (List.mem_cons_of_mem _ hx)) (by rw [h1]; exact ht)
    refine ⟨hs', k', ?_⟩
    show H.of g (s.step g e) t = _
    rw [h2, h1]
    have : headsOf (e :: t) = headsOf [e] ++ headsOf t := by
      unfold headsOf
      rw [← List.filterMap_append]; rfl
    rw [this, List.map_append, List.append_assoc]

/-- Good plain requests, one after another, in any pieces. -/
theorem conversation_state (g : WsServer.Cfg Z) {c : HttpRequest.Cfg} {body : L.σ → Prop} (hL : LibOk L body) (rs : List Request) (hp : ∀ r ∈ rs, IsPlain r.headers) (st : L.σ) (hr : Conversation L c L.init rs st)
    (l : List Bytes) (hl : l.flatten = rs.flatMap Request.wire) :
    ∃ x hs k, HttpServer.run (app g (.start g)) c ({} : Sess L) [] (arrival l false) = some (x, []) ∧ x.failed = none ∧ x.ack = false ∧ x.p = {} ∧ x.st = st ∧
      H.of g (.start g) x.trace = { w := { WsServer.W.start g with heads := hs, calls := k }, log := rs.map fun r => asked r.headers } := by
  obtain ⟨x, h1, h2, h3, h4, h5, h6, h7⟩ := take_state (c := c) hL rs st hr l hl
  have hc := calm_of takeApp rs hp x.trace h6 h7
  have hag : Agrees (app g (.start g)) takeApp x.trace := by
    intro pre h e post ht
    rcases hc (.headers h e) (by rw [ht]; simp) with ⟨h', k, he, hpl⟩ | ⟨b, he⟩ | ⟨_, b, k, he⟩
    · cases he
      obtain ⟨p1, p2, -⟩ := plain_of hpl
      show (app g (.start g)).onHeaders pre h e = {}
      unfold app
      simp only
      split
      · rfl
      · simp [hpl.1, p1, p2]
    · cases he
    · cases he
  have hrun := run_agrees (A := app g (.start g)) (A' := takeApp) (c := c) ⟨rfl, rfl⟩ _ _ _ h1 hag
  obtain ⟨hs, k, h8⟩ := of_calm g x.trace (.start g) hc rfl
  refine ⟨x, hs, k, hrun, h2, h3, h4, h5, ?_⟩
  rw [h8]
  have : headsOf x.trace = rs.map Request.headers := by rw [← heads_observed takeApp x.trace [] [], h6, heads_calls]
  rw [this, List.map_map]
  rfl

theorem step_addresses (g : WsServer.Cfg Z) (w : WsServer.W Z) (e : Ev) (he : ∀ h k, e ≠ .headers h k) : (w.step g e).addresses = w.addresses := by
  have herr : ∀ (w : WsServer.W Z) n, (w.error g n).addresses = w.addresses := by
    intro w n
    unfold WsServer.W.error
    split <;> rfl
  unfold WsServer.W.step
  split
  · rfl
  · cases e with
    | headers h k => exact absurd rfl (he h k)
    | stream b => rfl
    | finish h b k => rfl
    | error b n => exact herr _ _
    | reject b n => exact herr _ _
    | upgraded d k => rfl

/-- Without heads of requests. -/
theorem of_ws (g : WsServer.Cfg Z) (t : List Ev) : ∀ s : H Z, (∀ h k, .headers h k ∉ t) →
    (WsServer.W.of g s.w t).addresses = s.w.addresses ∧ H.of g s t = { w := WsServer.W.of g s.w t, log := s.log ++ (events (s.w.addresses.getLastD []) s.w.ws.trace (WsServer.W.of g s.w t).ws.trace).map lift } := by
  induction t with
  | nil => intro s _; exact ⟨rfl, by simp [H.of, WsServer.W.of, events]⟩
  | cons e t ih =>
    intro s hs
    have he : ∀ h k, e ≠ .headers h k := fun h k hx => hs h k (by simp [hx])
    have hst : s.step g e = s.take (s.w.step g e) := by
      unfold H.step
      split
      · rename_i h k; exact absurd rfl (he h k)
      · rfl
    have hadd := step_addresses g s.w e he
    obtain ⟨i1, i2⟩ := ih (s.take (s.w.step g e)) (fun h k hx => hs h k (by simp [hx]))
    refine ⟨i1.trans hadd, ?_⟩
    show H.of g (s.step g e) t = _
    rw [hst, i2]
    have hw : WsServer.W.of g s.w (e :: t) = WsServer.W.of g (s.w.step g e) t := rfl
    obtain ⟨m1, e1⟩ := (EasyWs.smore_step g s.w e).1
    obtain ⟨m2, e2⟩ := (EasyWs.smore_of g t (s.w.step g e)).1
    rw [hw]
    unfold H.take
    simp only [H.mk.injEq, true_and, List.append_assoc, hadd]
    rw [← List.map_append]
    congr 2
    unfold events
    rw [← e2, ← e1]
    simp [List.drop_left]

end Verif.EasyHws
