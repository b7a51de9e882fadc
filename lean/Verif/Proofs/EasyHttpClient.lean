import Verif.Proofs.EasyHttp
import Verif.Proofs.HttpClientDelivery
/-! # Proofs about sessions of easy HTTP clients -/
namespace Verif.HttpClient
open Verif.HttpLib Verif.HttpResponse Verif.Spec.Client
open Verif.HttpRequest (Cfg Fail)

variable {A : App} {c : Cfg} {L : Lib}

def Step.trace {L : Lib} : Step L → List Ev
  | .ret s _ => s.trace
  | .next s _ => s.trace

theorem afterParse_adds (A : App) (s : Sess L) (p : Parser) (rest : Bytes) (eof : Bool) : s.trace <+: (afterParse A s p rest eof).trace := by
  unfold afterParse
  split
  · exact ⟨_, rfl⟩
  · split
    · exact List.prefix_refl _
    · unfold afterHeaders
      split
      · exact ⟨_, rfl⟩
      · exact ⟨_, rfl⟩
      · exact ⟨_, by simp only [Step.trace, Sess.call]; rw [List.append_assoc]⟩
      · exact ⟨_, rfl⟩

theorem afterPayload_adds (A : App) (s : Sess L) (p : Parser) (rest : Bytes) : s.trace <+: (afterPayload A s p rest).trace := by
  unfold afterPayload
  split
  · exact ⟨_, rfl⟩
  · simp only
    split
    · exact ⟨_, rfl⟩
    · exact ⟨_, by simp only [Step.trace, Sess.call]; rw [List.append_assoc]⟩

theorem loop_adds (eof : Bool) (n : Nat) (s : Sess L) (data : Bytes) {r : Sess L × Bytes} (h : loop A c eof n s data = some r) : s.trace <+: r.1.trace := by
  induction n generalizing s data with
  | zero => exact absurd h (by simp [loop])
  | succ n ih =>
    rw [loop_succ] at h
    split at h
    · simp only [Option.some.injEq] at h; subst h; exact ⟨_, rfl⟩
    · split at h
      · simp only [Option.some.injEq] at h; subst h; exact List.prefix_refl _
      · have h1 : s.trace <+: (headersPhase A c s data eof).trace := by
          unfold headersPhase
          split
          · exact List.prefix_refl _
          · unfold onHead
            split
            · exact List.prefix_refl _
            · rename_i r _
              exact afterParse_adds A { s with st := r.2.1 } _ _ _
        cases hx : headersPhase A c s data eof with
        | ret s' d => rw [hx] at h h1; simp only [Option.some.injEq] at h; subst h; exact h1
        | next s' d =>
          rw [hx] at h h1
          simp only [finishIter] at h
          have h2 : s'.trace <+: (payloadPhase A c s' d eof).trace := by
            unfold payloadPhase
            split
            · exact List.prefix_refl _
            · unfold onPayload
              split
              · exact List.prefix_refl _
              · rename_i r _
                exact afterPayload_adds A { s' with st := r.2.1 } _ _
          cases hy : payloadPhase A c s' d eof with
          | ret s'' d' => rw [hy] at h h2; simp only [Option.some.injEq] at h; subst h; exact h1.trans h2
          | next s'' d' => rw [hy] at h h2; simp only at h; exact (h1.trans h2).trans (ih { s'' with p := next_message s''.p } d' h)

theorem step_adds (s : Sess L) (buf : Bytes) (a : Act) {r : Sess L × Bytes} (h : step A c s buf a = some r) : s.trace <+: r.1.trace := by
  simp only [step, do_on_tcp_stream] at h
  split at h
  · simp only [Option.some.injEq] at h; subst h; exact List.prefix_refl _
  · split at h
    · simp only [Option.some.injEq] at h; subst h; exact ⟨_, rfl⟩
    · exact loop_adds _ _ _ _ h

theorem run_adds (s : Sess L) (buf : Bytes) (as : List Act) {r : Sess L × Bytes} (h : run A c s buf as = some r) : s.trace <+: r.1.trace := by
  induction as generalizing s buf with
  | nil => simp only [run, Option.some.injEq] at h; subst h; exact List.prefix_refl _
  | cons a t ih =>
    simp only [run] at h
    cases hx : step A c s buf a with
    | none => rw [hx] at h; cases h
    | some v => rw [hx] at h; exact (step_adds _ _ _ hx).trans (ih _ _ h)

/-- The state after responses. -/
theorem plain_state {body : L.σ → Prop} (hL : ReplyLib L body) (empty : Nat → Bool) (rs : List Response) (st' : L.σ) (hr : Conversation L c empty 0 L.init rs st') (l : List Bytes)
    (hl : l.flatten = rs.flatMap Response.wire) :
    ∃ s, run (plainApp empty) c ({} : Sess L) [] (arrival l false) = some (s, []) ∧ s.failed = none ∧ s.ack = false ∧ s.p = {} ∧ s.st = st' ∧ responses s.trace = rs.flatMap Response.calls := by
  have hlen := conversation_length hr
  obtain ⟨s1, e1, e2, e3, e4, e5, -, e7, e8⟩ := loop_conversation empty false ({} : Sess L) rs st' [] rfl rfl rfl 0 rfl hr ((rs.flatMap Response.wire).length + 2 - rs.length)
  obtain ⟨n, hn⟩ : ∃ n, (rs.flatMap Response.wire).length + 2 - rs.length = n + 1 := ⟨_, (Nat.succ_pred (by omega)).symm⟩
  obtain ⟨st1, i1⟩ := idle_loop (A := plainApp empty) (c := c) false s1 n e3 e4 (by simp)
  rw [List.append_nil, show rs.length + ((rs.flatMap Response.wire).length + 2 - rs.length) = (rs.flatMap Response.wire).length + 2 by omega, hn, i1] at e1
  have hst : st1 = st' := by
    rw [loop_succ, if_neg (by simp [e3]), if_neg (by rw [e4]; simp)] at i1
    unfold headersPhase parse_headers parse at i1
    rw [if_neg (by rw [e4]; simp), if_neg (by rw [e4]; simp)] at i1
    simp only [exec, Bool.false_eq_true, if_false] at i1
    rw [if_neg (by rw [e4]; simp)] at i1
    simp only [onHead, afterParse] at i1
    rw [if_neg (by rw [e4]; simp), if_pos (by rw [e4]; simp)] at i1
    simp only [Option.some.injEq, Prod.mk.injEq, Sess.mk.injEq, and_true, true_and] at i1
    rw [← i1, e5]
  subst hst
  obtain ⟨s, h1, h2⟩ := arrival_one (plainApp_plain empty) hL l false _ hl e1 (s2 := { s1 with st := st1 }) (by simp)
  exact ⟨s, h1, by rw [h2.failed, ← e2], by rw [h2.ack]; exact e3, by rw [h2.p]; exact e4, h2.st, by rw [h2.req]; exact e7⟩

/-- Between responses, the end of the stream does nothing, if the library says so. -/
theorem idle_eof (s : Sess L) (hf : s.failed = none) (ha : s.ack = false) (hp : s.p = {}) (hq : L.eof s.st = (s.st, .go)) : step A c s [] ⟨[], true⟩ = some (s, []) := by
  rw [step_receive _ _ _ hf ha]
  have hee : execEof L s.p s.st = (s.p, s.st) := by
    unfold execEof
    rw [if_neg (by rw [hp]; simp), hq]
  have : headersPhase A c s [] true = .ret s [] := by
    unfold headersPhase parse_headers parse
    rw [if_neg (by rw [hp]; simp), if_neg (by rw [hp]; simp)]
    simp only [exec, if_true, hee]
    rw [if_neg (by rw [hp]; simp)]
    simp only [onHead, afterParse]
    rw [if_neg (by rw [hp]; simp), if_pos (by rw [hp]; simp)]
  rw [show ([] : Bytes).length + 2 = 1 + 1 from rfl, loop_succ, if_neg (by simp [ha]), if_neg (by rw [hp]; simp), this]

theorem default_plain : defaultApp = plainApp fun _ => false := rfl

end Verif.HttpClient

namespace Verif.EasyHttp
open Verif.Easy Verif.EasyNet
open Verif.HttpLib (Lib)
open Verif.Spec.Client (Response ReplyLib Conversation responses arrival)
open Verif.HttpClient (Act defaultApp)

abbrev clientAct (e : In) : List Act := match e with
  | .read d => [⟨d, false⟩]
  | .eof => [⟨[], true⟩]
  | _ => []

def clientActs (h : List In) : List Act := h.flatMap clientAct

def connects (h : List In) : List (Event CMsg) := if .connected ∈ h then [connected] else []

/-- What a session has pushed, and its state, are those of the HTTP session. -/
theorem client_outputs {c : HttpRequest.Cfg} {L : Lib} {body : L.σ → Prop} (hL : ReplyLib L body) (h : List In) (hh : Ordered h) {x : HttpClient.Sess L} {evs : List (Event CMsg)}
    (ho : outputs (client c L) (client c L).init h = some (x, evs)) :
    HttpClient.run defaultApp c {} [] (clientActs h) = some (x, []) ∧ evs = connects h ++ x.trace.flatMap clientEvent ++ closes h := by
  have hI : ∀ as x r, HttpClient.run (L := L) defaultApp c {} [] as = some (x, r) → HttpClient.Inv body x := by
    intro as x r hr
    obtain ⟨s, h1, h2⟩ := HttpClient.run_spec (A := defaultApp) (c := c) hL ({} : HttpClient.Sess L) as (HttpClient.inv_init hL)
    rw [h1] at hr; cases hr; exact h2
  induction h using snocInd generalizing x evs with
  | nil =>
    simp only [outputs, Option.some.injEq, Prod.mk.injEq] at ho
    obtain ⟨rfl, rfl⟩ := ho
    exact ⟨rfl, rfl⟩
  | snoc h i ih =>
    obtain ⟨hp, ha⟩ := ordered_pre hh
    obtain ⟨y, e1, e2, h1, h2, rfl⟩ := outputs_unsnoc ho
    obtain ⟨h3, h4⟩ := ih hp h1
    have hrd : ∀ d e, clientRead c y d e = some (x, e2) → HttpClient.step defaultApp c y [] ⟨d, e⟩ = some (x, []) ∧ y.trace.flatMap clientEvent ++ e2 = x.trace.flatMap clientEvent := by
      intro d e hr
      unfold clientRead at hr
      obtain ⟨s, h5, -⟩ := HttpClient.step_spec (A := defaultApp) (c := c) hL y ⟨d, e⟩ (hI _ _ _ h3)
      rw [h5] at hr
      simp only [Option.some.injEq, Prod.mk.injEq] at hr
      obtain ⟨rfl, rfl⟩ := hr
      refine ⟨h5, ?_⟩
      obtain ⟨t, ht⟩ := HttpClient.step_adds _ _ _ h5
      rw [← ht, List.drop_left, List.flatMap_append]
    unfold clientActs at h3 ⊢
    cases i with
    | connected =>
      simp only [admits, List.isEmpty_iff] at ha
      subst ha
      simp only [client, Option.some.injEq, Prod.mk.injEq] at h2
      obtain ⟨rfl, rfl⟩ := h2
      simp only [outputs, Option.some.injEq, Prod.mk.injEq] at h1
      obtain ⟨rfl, rfl⟩ := h1
      exact ⟨rfl, rfl⟩
    | closed r =>
      simp only [client, Option.some.injEq, Prod.mk.injEq] at h2
      obtain ⟨rfl, rfl⟩ := h2
      refine ⟨by simpa using h3, ?_⟩
      simp only [admits, Bool.not_eq_true'] at ha
      rw [h4, closes_nil ha]
      unfold connects closes
      rw [List.flatMap_append, show List.flatMap _ h = closes (M := CMsg) h from rfl, closes_nil ha]
      simp [ended]
    | read d =>
      obtain ⟨h5, h6⟩ := hrd d false h2
      simp only [admits, Bool.and_eq_true, Bool.not_eq_true'] at ha
      refine ⟨by rw [List.flatMap_append, HttpClient.run_append, h3]; simp [HttpClient.run, h5], ?_⟩
      rw [h4, closes_nil ha.2, ← h6]
      unfold connects closes
      rw [List.flatMap_append, show List.flatMap _ h = closes (M := CMsg) h from rfl, closes_nil ha.2]
      simp
    | eof =>
      obtain ⟨h5, h6⟩ := hrd [] true h2
      simp only [admits, Bool.and_eq_true, Bool.not_eq_true'] at ha
      refine ⟨by rw [List.flatMap_append, HttpClient.run_append, h3]; simp [HttpClient.run, h5], ?_⟩
      rw [h4, closes_nil ha.2, ← h6]
      unfold connects closes
      rw [List.flatMap_append, show List.flatMap _ h = closes (M := CMsg) h from rfl, closes_nil ha.2]
      simp

/-- Responses are reported. -/
theorem clientEvents_calls (rs : List Response) (t : List HttpClient.Ev) (h : responses t = rs.flatMap Response.calls) : t.flatMap clientEvent = rs.map answered := by
  have key : t.flatMap clientEvent = (responses t).flatMap clientEvent := by
    clear h
    induction t with
    | nil => rfl
    | cons x t ih => cases x <;> simp_all [responses, clientEvent]
  rw [key, h]
  clear h key
  induction rs with
  | nil => rfl
  | cons r rs ih =>
    rw [List.flatMap_cons, List.flatMap_append, ih]
    unfold Response.calls
    cases r.keep <;> rfl

theorem client_noeof (h : List In) (hn : .eof ∉ h) : clientActs h = arrival (pieces h) false := by
  induction h with
  | nil => rfl
  | cons x t ih =>
    have := ih (fun h => hn (List.mem_cons_of_mem _ h))
    unfold clientActs arrival pieces at *
    cases x <;> simp_all

/-- The responses of a conversation are reported by the session, as far as they have arrived. -/
theorem client_reports {c : HttpRequest.Cfg} {L : Lib} {body : L.σ → Prop} (hL : ReplyLib L body) {rs : List Response} {st : L.σ} (hr : Conversation L c (fun _ => false) 0 L.init rs st)
    (he : L.eof st = (st, .go)) (h : List In) (hh : Ordered h) (hs : Sends (rs.flatMap Response.wire) h) {x : HttpClient.Sess L} {evs : List (Event CMsg)}
    (ho : outputs (client c L) (client c L).init h = some (x, evs)) :
    ∃ k ≤ rs.length, evs = connects h ++ (rs.take k).map answered ++ closes h ∧ (bytes h = rs.flatMap Response.wire → k = rs.length) := by
  obtain ⟨h1, h2⟩ := client_outputs hL h hh ho
  suffices hk : x.trace.flatMap clientEvent <+: rs.map answered ∧ (bytes h = rs.flatMap Response.wire → x.trace.flatMap clientEvent = rs.map answered) by
    have e := List.prefix_iff_eq_take.mp hk.1
    have hlen : (x.trace.flatMap clientEvent).length ≤ rs.length := by simpa using hk.1.length_le
    refine ⟨_, hlen, by rw [List.map_take, ← e]; exact h2, fun hb => by rw [hk.2 hb]; simp⟩
  rcases split_eof h with hn | ⟨a, b, rfl, hna⟩
  · rw [client_noeof h hn] at h1
    obtain ⟨rest, hrest⟩ := hs.1
    obtain ⟨s, r1, -, -, -, -, r6⟩ := HttpClient.plain_state (c := c) hL (fun _ => false) rs st hr (pieces h ++ [rest]) (by simp [pieces_flatten, hrest])
    rw [← HttpClient.default_plain] at r1
    have hfull := clientEvents_calls rs s.trace r6
    constructor
    · rw [show arrival (pieces h ++ [rest]) false = arrival (pieces h) false ++ [⟨rest, false⟩] by simp [arrival], HttpClient.run_append, h1] at r1
      simp only at r1
      obtain ⟨t, ht⟩ := HttpClient.run_adds _ _ _ r1
      rw [← hfull, ← ht, List.flatMap_append]
      exact ⟨_, rfl⟩
    · intro hb
      obtain ⟨s, r1, -, -, -, -, r6⟩ := HttpClient.plain_state (c := c) hL (fun _ => false) rs st hr (pieces h) (by rw [pieces_flatten, hb])
      rw [← HttpClient.default_plain, h1] at r1
      cases r1
      exact clientEvents_calls rs _ r6
  · have hb := hs.2 a b rfl
    obtain ⟨s, r1, q1, q2, q3, q4, r6⟩ := HttpClient.plain_state (c := c) hL (fun _ => false) rs st hr (pieces a) (by rw [pieces_flatten, hb])
    rw [← HttpClient.default_plain] at r1
    have hidle : ∀ v : List In, (∀ d, .read d ∉ v) → HttpClient.run defaultApp c s [] (clientActs v) = some (s, []) := by
      intro v
      induction v with
      | nil => intro _; rfl
      | cons y t ih =>
        intro hv
        have hi := ih (fun d hd => hv d (List.mem_cons_of_mem _ hd))
        cases y with
        | read d => exact absurd (List.mem_cons_self ..) (hv d)
        | connected => exact hi
        | closed r => exact hi
        | eof =>
          show HttpClient.run defaultApp c s [] (⟨[], true⟩ :: clientActs t) = _
          rw [HttpClient.run, HttpClient.idle_eof s q1 q2 q3 (by rw [q4]; exact he)]
          exact hi
    have : clientActs (a ++ .eof :: b) = arrival (pieces a) false ++ clientActs (.eof :: b) := by rw [← client_noeof a hna]; simp [clientActs]
    rw [this, HttpClient.run_append, r1] at h1
    simp only at h1
    rw [hidle (.eof :: b) (fun d hd => by
      rcases List.mem_cons.mp hd with h | h
      · cases h
      · exact no_reads hs hh d h)] at h1
    cases h1
    have := clientEvents_calls rs _ r6
    exact ⟨by rw [this]; exact List.prefix_refl _, fun _ => this⟩

end Verif.EasyHttp
