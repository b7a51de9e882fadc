import Verif.Proofs.EasyNet
import Verif.Proofs.HttpServerDefault
import Verif.Spec.EasyHttp
/-! # Proofs about sessions of easy HTTP servers -/
namespace Verif.EasyHttp
open Verif.Easy Verif.EasyNet
open Verif.HttpLib (Lib)
open Verif.Spec (Request LibOk Conversation requests arrival)
open Verif.HttpServer (Act defaultApp)

abbrev serverAct (e : In) : List Act := match e with
  | .read d => [.receive d false]
  | .eof => [.receive [] true]
  | _ => []

def serverActs (h : List In) : List Act := h.flatMap serverAct

def opens (h : List In) : List (Event SMsg) := if .connected ∈ h then [opened] else []
def closes {M : Type} (h : List In) : List (Event M) := h.flatMap fun | .closed r => [ended r] | _ => []

theorem ordered_pre {h : List In} {i : In} (hh : Ordered (h ++ [i])) : Ordered h ∧ admits h i = true :=
  ⟨fun a j b e => hh a j (b ++ [i]) (by rw [e]; simp), hh h i [] rfl⟩

theorem closes_nil {M : Type} {h : List In} (hc : h.any (·.isClosed) = false) : closes (M := M) h = [] := by
  rw [List.any_eq_false] at hc
  unfold closes
  rw [List.flatMap_eq_nil_iff]
  intro x hx
  have := hc x hx
  cases x <;> simp_all [In.isClosed]

theorem serverEvents_append (junk : List HttpServer.Ev → Ty) (p a b : List HttpServer.Ev) : serverEvents junk p (a ++ b) = serverEvents junk p a ++ serverEvents junk (p ++ a) b := by
  induction a generalizing p with
  | nil => simp [serverEvents]
  | cons x t ih => simp [serverEvents, ih, List.append_assoc]

/-- What a session has pushed, and its state, are those of the HTTP session. -/
theorem server_outputs {c : HttpRequest.Cfg} {L : Lib} {body : L.σ → Prop} (hL : LibOk L body) (junk : List HttpServer.Ev → Ty) (h : List In) (hh : Ordered h) {x : HttpServer.Sess L} {evs : List (Event SMsg)}
    (ho : outputs (server c L junk) (server c L junk).init h = some (x, evs)) :
    HttpServer.run defaultApp c {} [] (serverActs h) = some (x, []) ∧ evs = opens h ++ serverEvents junk [] x.trace ++ closes h := by
  have hI : ∀ as x r, HttpServer.run (L := L) defaultApp c {} [] as = some (x, r) → HttpServer.Inv body x := by
    intro as x r hr
    obtain ⟨s, h1, h2⟩ := HttpServer.run_spec (A := defaultApp) (c := c) hL ({} : HttpServer.Sess L) as (HttpServer.inv_init hL)
    rw [h1] at hr; cases hr; exact h2
  induction h using snocInd generalizing x evs with
  | nil =>
    simp only [outputs, Option.some.injEq, Prod.mk.injEq] at ho
    obtain ⟨rfl, rfl⟩ := ho
    exact ⟨rfl, rfl⟩
  | snoc h i ih =>
    obtain ⟨hp, ha⟩ := ordered_pre hh
    obtain ⟨y, e1, e2, h1, h2, rfl⟩ := outputs_unsnoc ho
    obtain ⟨h3, h4⟩ := ih hp h1
    have hrd : ∀ d e, serverRead c junk y d e = some (x, e2) → HttpServer.step defaultApp c y [] (.receive d e) = some (x, []) ∧ serverEvents junk [] y.trace ++ e2 = serverEvents junk [] x.trace := by
      intro d e hr
      unfold serverRead at hr
      obtain ⟨s, h5, -⟩ := HttpServer.step_spec (A := defaultApp) (c := c) hL y (.receive d e) (hI _ _ _ h3)
      rw [h5] at hr
      simp only [Option.some.injEq, Prod.mk.injEq] at hr
      obtain ⟨rfl, rfl⟩ := hr
      refine ⟨h5, ?_⟩
      obtain ⟨t, ht⟩ := HttpServer.step_adds _ _ _ h5
      rw [← ht, List.drop_left, serverEvents_append]; rfl
    unfold serverActs at h3 ⊢
    cases i with
    | connected =>
      simp only [admits, List.isEmpty_iff] at ha
      subst ha
      simp only [server, Option.some.injEq, Prod.mk.injEq] at h2
      obtain ⟨rfl, rfl⟩ := h2
      simp only [outputs, Option.some.injEq, Prod.mk.injEq] at h1
      obtain ⟨rfl, rfl⟩ := h1
      exact ⟨rfl, rfl⟩
    | closed r =>
      simp only [server, Option.some.injEq, Prod.mk.injEq] at h2
      obtain ⟨rfl, rfl⟩ := h2
      refine ⟨by simpa using h3, ?_⟩
      simp only [admits, Bool.not_eq_true'] at ha
      rw [h4, closes_nil ha]
      unfold opens closes
      rw [List.flatMap_append, show List.flatMap _ h = closes (M := SMsg) h from rfl, closes_nil ha]
      simp [ended]
    | read d =>
      obtain ⟨h5, h6⟩ := hrd d false h2
      simp only [admits, Bool.and_eq_true, Bool.not_eq_true'] at ha
      refine ⟨by rw [List.flatMap_append, HttpServer.run_append, h3]; simp [HttpServer.run, h5], ?_⟩
      rw [h4, closes_nil ha.2, ← h6]
      unfold opens closes
      rw [List.flatMap_append, show List.flatMap _ h = closes (M := SMsg) h from rfl, closes_nil ha.2]
      simp
    | eof =>
      obtain ⟨h5, h6⟩ := hrd [] true h2
      simp only [admits, Bool.and_eq_true, Bool.not_eq_true'] at ha
      refine ⟨by rw [List.flatMap_append, HttpServer.run_append, h3]; simp [HttpServer.run, h5], ?_⟩
      rw [h4, closes_nil ha.2, ← h6]
      unfold opens closes
      rw [List.flatMap_append, show List.flatMap _ h = closes (M := SMsg) h from rfl, closes_nil ha.2]
      simp

/-- Requests are reported. -/
theorem serverEvents_calls (junk : List HttpServer.Ev → Ty) (rs : List Request) (p t : List HttpServer.Ev) (h : requests t = rs.flatMap Request.calls) : serverEvents junk p t = rs.map asked := by
  have key : ∀ (t : List HttpServer.Ev) (q : List HttpServer.Ev), (∀ e ∈ requests t, (∃ a b, e = .headers a b) ∨ ∃ a b d, e = .finish a b d) →
      serverEvents junk q t = (requests t).flatMap fun | .finish a b e => [{ ty := .other, msg := some (.request a b e) }] | _ => [] := by
    intro t
    induction t with
    | nil => intro q _; rfl
    | cons x t ih =>
      intro q hx
      unfold serverEvents
      rw [ih (q ++ [x]) (fun e he => hx e (by unfold requests at he ⊢; rw [List.mem_filter] at he ⊢; exact ⟨List.mem_cons_of_mem _ he.1, he.2⟩))]
      cases x with
      | stream b => rfl
      | upgraded b e => rfl
      | headers a b => rfl
      | finish a b e => rfl
      | error a b => rcases hx (.error a b) (by simp [requests]) with ⟨_, _, h⟩ | ⟨_, _, _, h⟩ <;> cases h
      | reject a b => rcases hx (.reject a b) (by simp [requests]) with ⟨_, _, h⟩ | ⟨_, _, _, h⟩ <;> cases h
  rw [key t p (by
    rw [h]; intro e he
    obtain ⟨r, -, hr⟩ := List.mem_flatMap.mp he
    simp only [Request.calls, List.mem_cons, List.not_mem_nil, or_false] at hr
    rcases hr with rfl | rfl
    · exact Or.inl ⟨_, _, rfl⟩
    · exact Or.inr ⟨_, _, _, rfl⟩), h]
  clear h key
  induction rs with
  | nil => rfl
  | cons r rs ih => rw [List.flatMap_cons, List.flatMap_append, ih]; rfl

theorem sends_pre {w : Bytes} {a b : List In} (h : Sends w (a ++ b)) : Sends w a := by
  refine ⟨List.IsPrefix.trans ⟨bytes b, by simp [bytes]⟩ h.1, fun x y e => h.2 x (y ++ b) (by rw [e]; simp)⟩

/-- The arrival of data without an end of the stream. -/
def pieces (h : List In) : List Bytes := h.flatMap fun | .read d => [d] | _ => []

theorem pieces_flatten (h : List In) : (pieces h).flatten = bytes h := by
  induction h with
  | nil => rfl
  | cons x t ih => unfold pieces bytes at *; cases x <;> simp_all

theorem acts_noeof (h : List In) (hn : .eof ∉ h) : serverActs h = arrival (pieces h) false := by
  induction h with
  | nil => rfl
  | cons x t ih =>
    have := ih (fun h => hn (List.mem_cons_of_mem _ h))
    unfold serverActs arrival pieces at *
    cases x <;> simp_all

theorem split_eof (h : List In) : .eof ∉ h ∨ ∃ a b, h = a ++ .eof :: b ∧ .eof ∉ a := by
  induction h with
  | nil => exact Or.inl (by simp)
  | cons x t ih =>
    by_cases hx : x = .eof
    · exact Or.inr ⟨[], t, by simp [hx], by simp⟩
    · rcases ih with ih | ⟨a, b, rfl, hb⟩
      · left; simp [ih, Ne.symm hx]
      · right; exact ⟨x :: a, b, rfl, by simp [hb, Ne.symm hx]⟩

theorem direct_of {rs : List Request} (hx : ∀ r ∈ rs, r.headers.is_proxy = false) {t : List HttpServer.Ev} (h : requests t = rs.flatMap Request.calls) : HttpServer.Direct t := by
  intro a e ha
  have : .headers a e ∈ requests t := List.mem_filter.mpr ⟨ha, rfl⟩
  rw [h] at this
  obtain ⟨r, hr, h2⟩ := List.mem_flatMap.mp this
  simp only [Request.calls, List.mem_cons, List.not_mem_nil, or_false] at h2
  rcases h2 with h2 | h2
  · cases h2; exact hx r hr
  · cases h2

theorem no_reads {w : Bytes} {a b : List In} (hs : Sends w (a ++ .eof :: b)) (ho : Ordered (a ++ .eof :: b)) (d : Bytes) : .read d ∉ b := by
  intro hm
  obtain ⟨u, v, rfl⟩ := List.append_of_mem hm
  have h1 := hs.2 a _ rfl
  have h2 := hs.1
  have h3 := ho (a ++ .eof :: u) (.read d) v (by simp)
  simp only [admits, Bool.and_eq_true, Bool.not_eq_true', List.isEmpty_eq_false_iff] at h3
  obtain ⟨r, hr⟩ := h2
  have := congrArg List.length hr
  rw [← h1] at this
  simp only [bytes, List.flatMap_append, List.flatMap_cons, List.length_append] at this
  have : 0 < d.length := List.length_pos_iff.mpr h3.1.1
  omega

/-- The requests of a conversation are reported by the session, as far as they have arrived. -/
theorem server_reports {c : HttpRequest.Cfg} {L : Lib} {body : L.σ → Prop} (hL : LibOk L body) (junk : List HttpServer.Ev → Ty) {rs : List Request} {st : L.σ} (hr : Conversation L c L.init rs st)
    (hx : ∀ r ∈ rs, r.headers.is_proxy = false) (he : L.eof st = (st, .go)) (h : List In) (hh : Ordered h) (hs : Sends (rs.flatMap Request.wire) h) {x : HttpServer.Sess L} {evs : List (Event SMsg)}
    (ho : outputs (server c L junk) (server c L junk).init h = some (x, evs)) :
    ∃ k ≤ rs.length, evs = opens h ++ (rs.take k).map asked ++ closes h ∧ (bytes h = rs.flatMap Request.wire → k = rs.length) := by
  obtain ⟨h1, h2⟩ := server_outputs hL junk h hh ho
  suffices hk : serverEvents junk [] x.trace <+: rs.map asked ∧ (bytes h = rs.flatMap Request.wire → serverEvents junk [] x.trace = rs.map asked) by
    have e := List.prefix_iff_eq_take.mp hk.1
    have hlen : (serverEvents junk [] x.trace).length ≤ rs.length := by simpa using hk.1.length_le
    refine ⟨_, hlen, by rw [List.map_take, ← e]; exact h2, fun hb => by rw [hk.2 hb]; simp⟩
  rcases split_eof h with hn | ⟨a, b, rfl, hna⟩
  · rw [acts_noeof h hn] at h1
    obtain ⟨rest, hrest⟩ := hs.1
    obtain ⟨s, r1, -, -, -, -, r6⟩ := HttpServer.plain_state (c := c) hL (fun _ => false) rs (fun _ _ => rfl) st hr (pieces h ++ [rest]) (by simp [pieces_flatten, hrest])
    have r2 := HttpServer.run_alike HttpServer.alike_default _ _ _ r1 (direct_of hx r6)
    have hfull := serverEvents_calls junk rs [] s.trace r6
    constructor
    · rw [show arrival (pieces h ++ [rest]) false = arrival (pieces h) false ++ [.receive rest false] by simp [arrival], HttpServer.run_append, h1] at r2
      simp only at r2
      obtain ⟨t, ht⟩ := HttpServer.run_adds _ _ _ r2
      rw [← hfull, ← ht, serverEvents_append]
      exact ⟨_, rfl⟩
    · intro hb
      obtain ⟨s, r1, -, -, -, -, r6⟩ := HttpServer.plain_state (c := c) hL (fun _ => false) rs (fun _ _ => rfl) st hr (pieces h) (by rw [pieces_flatten, hb])
      have r2 := HttpServer.run_alike HttpServer.alike_default _ _ _ r1 (direct_of hx r6)
      rw [h1] at r2
      cases r2
      exact serverEvents_calls junk rs [] _ r6
  · have hb := hs.2 a b rfl
    obtain ⟨s, r1, q1, q2, q3, q4, r6⟩ := HttpServer.plain_state (c := c) hL (fun _ => false) rs (fun _ _ => rfl) st hr (pieces a) (by rw [pieces_flatten, hb])
    have r2 := HttpServer.run_alike HttpServer.alike_default _ _ _ r1 (direct_of hx r6)
    have hidle : ∀ v : List In, (∀ d, .read d ∉ v) → HttpServer.run defaultApp c s [] (serverActs v) = some (s, []) := by
      intro v
      induction v with
      | nil => intro _; rfl
      | cons y t ih =>
        intro hv
        have hi := ih (fun d hd => hv d (List.mem_cons_of_mem _ hd))
        cases y with
        | read d => exact absurd (List.mem_cons_self ..) (hv d)
        | connected => exact hi
        | closed r => exact hi
        | eof =>
          show HttpServer.run defaultApp c s [] (.receive [] true :: serverActs t) = _
          rw [HttpServer.run, HttpServer.idle_eof s q1 q2 q3 (by rw [q4]; exact he)]
          exact hi
    have : serverActs (a ++ .eof :: b) = arrival (pieces a) false ++ serverActs (.eof :: b) := by rw [← acts_noeof a hna]; simp [serverActs]
    rw [this, HttpServer.run_append, r2] at h1
    simp only at h1
    rw [hidle (.eof :: b) (fun d hd => by
      rcases List.mem_cons.mp hd with h | h
      · cases h
      · exact no_reads hs hh d h)] at h1
    cases h1
    have := serverEvents_calls junk rs [] _ r6
    exact ⟨by rw [this]; exact List.prefix_refl _, fun _ => this⟩

end Verif.EasyHttp
