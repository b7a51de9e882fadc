import Verif.Model.HttpPage
import Verif.Spec.HttpPage
import Verif.Proofs.HttpExchangeAll
import Verif.Proofs.HttpLineLib
import Verif.Proofs.HttpClientConsume
/-! # Proofs for the default page -/
namespace Verif.HttpExchange
open Verif.HttpLib Verif.Spec Verif.Spec.Exchange
open Verif.HttpRequest (Cfg)
open Verif.Http (SHeaders)

/-- The small library reads responses that end with the connection. -/
theorem lineLib_to_end (limit : Nat) : ReadsRepliesToEnd limit (lineLib readReply) := by
  refine ⟨fun st => st = LineState.head [] [], rfl, ?_, ?_, ?_⟩
  · rintro st rfl; simp [lineLib]
  · rintro st empty r rfl hv
    exact ⟨[r.reason], r.fields.map (fun f => ([f.1], [f.2])), r.body.map (fun x => [x]), LineState.head [] [], by simp, by simp, singles _, single_ne _, (bodies _).1, lineLib_valid hv, by simp [lineLib], fun _ => rfl⟩
  · rintro st r rfl hv
    refine ⟨[r.reason], r.fields.map (fun f => ([f.1], [f.2])), r.body.map (fun x => [x]), LineState.head [] [], by simp, by simp, singles _, single_ne _, (bodies _).1, ?_, by simp [lineLib]⟩
    obtain ⟨w1, d1, d2, s1, e1, h4, h3, e2⟩ := reply_head r hv.reason hv.digits hv.fields hv.persists
    have hf : (if r.status ≤ 199 ∨ r.status = 204 ∨ r.status = 304 then Frame.none else replyFrame r.fields) = .stream := by
      rw [if_neg (show ¬ (r.status ≤ 199 ∨ r.status = 204 ∨ r.status = 304) from hv.status.2.2)]
      simp [replyFrame, frameOf, any_absent hv.framed.2.1, find_absent hv.framed.1]
    rw [hf] at h3
    have h6 : Emits (lineLib readReply) (.ready .stream) [10] [] .rest := emits_one (by simp [lineLib, feed])
    refine ⟨w1, 10, r.text, d1, d2, s1, LineState.ready .stream, [], r.status, r.body.map (fun x => .body [x]), LineState.rest, ?_, h4, h3, e2, ?_⟩
    · show r.head ++ r.text = _
      rw [e1]; simp
    · simp only [if_true, Bool.false_eq_true, if_false]
      exact ⟨by rw [hv.framed.2.2]; exact emits_trans h6 (rest_all _ _), by simp [lineLib], (bodies _).2⟩

section
variable {status_str : Nat → Bytes} {c : Cfg} {limit : Nat} {L : Lib} {idle : L.σ → Prop}

/-- Responses that keep the connection open leave the library ready for more. -/
theorem open_replies (hr : ReplyReader limit L idle) : ∀ (as : List (Bool × Sending SHeaders)), (∀ a ∈ as, Suits status_str c limit a.1 true a.2) →
    ∀ (empty : Nat → Bool) (n : Nat), (∀ k (hk : k < as.length), empty (n + k) = as[k].1) → ∀ st : L.σ, idle st →
    ∃ (rs : List Client.Response) (st' : L.σ) (gs : List Answered), Client.Conversation L c empty n st rs st' ∧ rs.flatMap Client.Response.wire = as.flatMap (fun a => replyBytes status_str a.1 a.2) ∧ idle st' ∧ rs.length = as.length ∧
      Each (fun (a : Bool × Sending SHeaders) g => Arrives status_str a.1 a.2 g) as gs ∧ rs.flatMap Client.Response.calls = gs.flatMap Answered.events := by
  intro as
  induction as with
  | nil => exact fun _ empty n _ st hi => ⟨[], st, [], .nil n st, rfl, hi, rfl, .nil, rfl⟩
  | cons a as ih =>
    intro ha empty n hn st hi
    obtain ⟨r, st', h1, h0, h2, h3, h3', h4, h5⟩ := one_reply hr hi (ha a (by simp))
    have e := hn 0 (by simp)
    obtain ⟨rs, st'', gs, g1, g2, g3, g4, g5, g6⟩ := ih (fun b hb => ha b (by simp [hb])) empty (n + 1) (by intro k hk; have := hn (k + 1) (by simpa using hk); simpa [Nat.add_assoc, Nat.add_comm 1 k] using this) st' (h5 rfl)
    exact ⟨r :: rs, st'', answeredOf status_str a.1 true a.2 :: gs, .cons (by rw [show empty n = a.1 from e]; exact h1) h0 g1, by simp only [List.flatMap_cons, h2, g2], g3, by simp [g4],
      .cons (answered_arrives (ha a (by simp))) g5, by simp only [List.flatMap_cons, h3, g6]⟩

theorem open_sent (V : Http.Lib) : ∀ (as : List (Bool × Sending SHeaders)), (∀ a ∈ as, Suits status_str c limit a.1 true a.2) → ∀ o : Out, o.shut = false →
    (as.flatMap (fun a => answers a.1 a.2)).foldl (answer V status_str) o = { o with sent := o.sent ++ as.flatMap (fun a => replyBytes status_str a.1 a.2) } := by
  intro as
  induction as with
  | nil => intro _ o _; simp
  | cons a as ih =>
    intro ha o ho
    simp only [List.flatMap_cons, List.foldl_append]
    rw [one_open V (ha a (by simp)) o ho, ih (fun b hb => ha b (by simp [hb])) _ (by exact ho)]
    simp

/-- The page as a response on the wire. -/
def pageReply (status_str : Nat → Bytes) (status : Nat) : WireReply where
  status := status
  digits := Http.decimal status
  reason := status_str status
  fields := (page_headers status_str status).headers
  text := default_page status (status_str status)
  body := default_page status (status_str status)
  keep := false

theorem page_fields (status_str : Nat → Bytes) (status : Nat) : GoodFields (page_headers status_str status).headers := by
  intro f hf
  simp only [page_headers, List.mem_cons, List.not_mem_nil, or_false] at hf
  have key : ∀ v : Bytes, (∀ c ∈ v, c = 9 ∨ 32 ≤ c.toNat ∧ c ≠ 127) → (∀ c ∈ v.head?, c ≠ 9 ∧ c ≠ 32) → (∀ c ∈ v.getLast?, c ≠ 9 ∧ c ≠ 32) → FieldText v := fun v h1 h2 h3 =>
    ⟨h1, fun c t e => h2 c (by simp [e]), fun c t e => h3 c (by simp [e])⟩
  rcases hf with rfl | rfl
  · exact ⟨by simp, by decide, key _ (by decide) (by decide) (by decide)⟩
  · exact ⟨by simp, by decide, key _ (by decide) (by decide) (by decide)⟩

theorem page_until (status_str : Nat → Bytes) (status : Nat) (h1 : 200 ≤ status ∧ status ≤ 599) (h2 : ¬ NoPayload status) (hr : ∀ x ∈ status_str status, x = 9 ∨ 32 ≤ x.toNat ∧ x ≠ 127)
    (hl : (pageReply status_str status).head.length ≤ limit) : (pageReply status_str status).UntilClose limit where
  status := ⟨by show 100 ≤ status; omega, by show status ≤ 999; omega, h2⟩
  digits := ⟨Http.decimal_decNum status, decimal_three status (by omega) (by omega)⟩
  reason := hr
  fields := page_fields status_str status
  framed := by
    refine ⟨?_, ?_, rfl⟩ <;>
    · intro f hf e
      simp only [pageReply, page_headers, List.mem_cons, List.not_mem_nil, or_false] at hf
      rw [Http.sameButCase_iff] at e
      rcases hf with rfl | rfl <;> exact absurd e (by decide)
  persists := by
    have hm : ∀ {P : Bytes × Bytes → Prop}, P (b! "Content-Type", b! "text/html") → P (b! "Connection", b! "close") → ∀ f ∈ (pageReply status_str status).fields, P f := by
      intro P p1 p2 f hf
      simp only [pageReply, page_headers, List.mem_cons, List.not_mem_nil, or_false] at hf
      rcases hf with rfl | rfl
      · exact p1
      · exact p2
    refine ⟨hm (fun e => ?_) (fun _ => .inl (sbc_self _)), ⟨fun _ => ⟨(b! "Connection", b! "close"), by simp [pageReply, page_headers], sbc_self _, sbc_self _⟩, fun _ => rfl⟩, ?_, ?_⟩
    · rw [Http.sameButCase_iff] at e; exact absurd e (by decide)
    · exact hm (fun e => by rw [Http.sameButCase_iff] at e; exact absurd e (by decide)) (fun e => by rw [Http.sameButCase_iff] at e; exact absurd e (by decide))
    · exact hm (fun e => by rw [Http.sameButCase_iff] at e; exact absurd e (by decide)) (fun e => by rw [Http.sameButCase_iff] at e; exact absurd e (by decide))
  close := rfl
  size := hl

theorem page_wire (status_str : Nat → Bytes) (status : Nat) :
    Http.raw_response status_str (page_headers status_str status) (default_page status (status_str status)) = (pageReply status_str status).head ++ (pageReply status_str status).text := by
  have := raw_eq status_str (page_headers status_str status) (fun f hf => (page_fields status_str status f hf).1) (default_page status (status_str status))
  rw [this]
  have e : reasonOf status_str (page_headers status_str status) = status_str status := by
    unfold reasonOf page_headers
    split <;> rfl
  simp only [WireReply.head, pageReply, e]
  rfl

end

end Verif.HttpExchange
