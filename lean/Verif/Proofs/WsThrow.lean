import Verif.Proofs.WsIter
import Verif.Spec.WsThrow
import Verif.Model.WsServer
import Verif.Model.WsClient
/-! Exceptions of callbacks leave WebSocket sessions. -/
namespace Verif.Ws
open Verif.Spec
variable {Z : Type}

/-- A history, and whether an exception has left the session. -/
def Leaves (env : Env Z) (t : List Ev) (threw : Bool) : Prop := NoneThrew env t ∨ (threw = true ∧ LastThrew env t)

theorem none_nil (env : Env Z) : NoneThrew env [] := by
  intro a e b h; cases a <;> simp at h

theorem none_push {env : Env Z} {t : List Ev} {e : Ev} (h : NoneThrew env t) (he : callbackThrows env t e = false) : NoneThrew env (t ++ [e]) := by
  intro a x b hx
  rcases List.eq_nil_or_concat b with rfl | ⟨b', y, rfl⟩
  · have := List.append_inj' hx rfl
    obtain ⟨rfl, h2⟩ := this
    cases h2; exact he
  · rw [List.concat_eq_append, ← List.cons_append, ← List.append_assoc] at hx
    exact h a x b' (List.append_inj' hx rfl).1

theorem leaves_push {env : Env Z} {t : List Ev} (e : Ev) (h : NoneThrew env t) : Leaves env (t ++ [e]) (callbackThrows env t e) := by
  cases hc : callbackThrows env t e with
  | false => exact .inl (none_push h hc)
  | true => exact .inr ⟨rfl, t, e, rfl, hc, h⟩

theorem Leaves.mono {env : Env Z} {t : List Ev} {b b' : Bool} (h : Leaves env t b) (hb : b = true → b' = true) : Leaves env t b' := by
  rcases h with h | ⟨h, h'⟩
  · exact .inl h
  · exact .inr ⟨hb h, h'⟩

theorem Leaves.none {env : Env Z} {t : List Ev} (h : Leaves env t false) : NoneThrew env t := by
  rcases h with h | ⟨h, -⟩
  · exact h
  · cases h

theorem none_send {env : Env Z} {s : Session Z} (op : Nat) (b : Bytes) (h : NoneThrew env s.trace) : NoneThrew env (s.send_raw env op b).1.trace := by
  unfold Session.send_raw
  split
  · exact h
  · exact none_push h rfl

theorem none_shut {env : Env Z} {s : Session Z} (n : Nat) (r : Bytes) (h : NoneThrew env s.trace) : NoneThrew env (s.ws_shut_down env n r).trace := by
  unfold Session.ws_shut_down
  split
  · exact none_push h rfl
  · exact none_push (none_send _ _ h) rfl

theorem leaves_close {env : Env Z} {s : Session Z} (n : Nat) (r : Bytes) (h : NoneThrew env s.trace) :
    Leaves env (s.close_once env n r).1.trace (s.close_once env n r).2 := by
  unfold Session.close_once
  split
  · exact .inl h
  · have hp := leaves_push (.close n r) h
    simp only
    split
    · rename_i ht; exact hp.mono (fun _ => rfl)
    · rename_i ht
      refine .inl (none_shut _ _ ?_)
      exact none_push h (by simpa [callbackThrows] using ht)

/-- The outcome of an iteration. -/
def IterLeaves (env : Env Z) : Iter Z → Prop
  | .next s _ => NoneThrew env s.trace
  | .stop s _ => NoneThrew env s.trace
  | .throw s _ => Leaves env s.trace true

theorem iter_leave {env : Env Z} {r : Session Z × Bool} {d : Bytes} (h : Leaves env r.1.trace r.2) : IterLeaves env (Iter.leave r d) := by
  unfold Iter.leave
  cases hr : r.2 with
  | true => rw [if_pos rfl]; exact h.mono (fun _ => rfl)
  | false => rw [hr] at h; rw [if_neg (by simp)]; exact h.none

theorem leaves_combine {env : Env Z} {s : Session Z} (h : NoneThrew env s.trace) : Leaves env (s.combine env).1.trace (s.combine env).2 := by
  unfold Session.combine
  simp only
  split
  · rename_i left hl
    exact .inl (none_push h (by simp [callbackThrows, hl]))
  · rename_i hl
    exact (leaves_push _ h).mono (fun _ => rfl)

theorem start_trace (s : Session Z) : s.start_message.trace = s.trace := by unfold Session.start_message; split <;> rfl

theorem inflate_trace {env : Env Z} {s s' : Session Z} {z : Z} {o : Bytes} (h : s.inflate env z o = some s') : s'.trace = s.trace := by
  unfold Session.inflate at h
  simp only at h
  repeat' split at h
  all_goals first
    | simp at h; done
    | (simp only [Option.some.injEq] at h; rw [← h])

def DataLeaves (env : Env Z) : DataResult Z → Prop
  | .go s => NoneThrew env s.trace
  | .threw s => Leaves env s.trace true
  | .closed r => Leaves env r.1.trace r.2

theorem leaves_combined {env : Env Z} {s : Session Z} (h : NoneThrew env s.trace) : DataLeaves env (s.combined env) := by
  have := leaves_combine (env := env) h
  unfold Session.combined
  cases hc : (s.combine env).2 with
  | true => rw [hc] at this; exact this
  | false => rw [hc] at this; exact this.none

theorem leaves_data {env : Env Z} {s : Session Z} (h : NoneThrew env s.trace) : DataLeaves env (s.data_frame env) := by
  have h1 : NoneThrew env s.start_message.trace := by rw [start_trace]; exact h
  unfold Session.data_frame
  simp only
  split
  · split
    · exact leaves_close _ _ h1
    · split
      · rename_i hi
        exact leaves_combined (by rw [inflate_trace hi]; exact h1)
      · exact .inl h1
  · exact leaves_combined h1

theorem leaves_done {env : Env Z} {s : Session Z} (d : Bytes) (h : NoneThrew env s.trace) : IterLeaves env (s.frame_done env d) := by
  unfold Session.frame_done
  simp only
  split
  · exact h
  split
  · split
    · rename_i hl
      exact none_push h (by simp [callbackThrows, hl])
    · exact (leaves_push _ h).mono (fun _ => rfl)
  split
  · exact iter_leave (leaves_push (.close _ _) h)
  split
  · have hs := none_send 0x8A s.parser.frm_payload h
    split
    · rename_i he; rw [he] at hs; exact .inl hs
    · rename_i he
      rw [he] at hs
      split
      · exact (leaves_push _ hs).mono (fun _ => rfl)
      · rename_i hn; exact none_push hs (by simpa [callbackThrows, Option.isNone_iff_eq_none, Option.isSome_iff_ne_none] using hn)
  split
  · split
    · exact (leaves_push _ h).mono (fun _ => rfl)
    · rename_i hn; exact none_push h (by simpa [callbackThrows, Option.isNone_iff_eq_none, Option.isSome_iff_ne_none] using hn)
  · exact h

theorem leaves_payload {env : Env Z} {s : Session Z} (a : Nat) (d : Bytes) (h : NoneThrew env s.trace) : IterLeaves env (s.payload_part env a d) := by
  unfold Session.payload_part
  split
  · exact .inl h
  · simp only
    have hrest : ∀ (s : Session Z) (d : Bytes), NoneThrew env s.trace → IterLeaves env (if !s.parser.frame_payload_complete then .stop s d else s.frame_done env d) := by
      intro s d h
      split
      · exact h
      · exact leaves_done d h
    split
    · exact iter_leave (leaves_close _ _ h)
    · split
      · rename_i p d' _ _ _
        have hd := leaves_data (env := env) (s := { s with parser := p }) h
        split <;> rename_i hx <;> rw [hx] at hd
        · exact hrest _ _ hd
        · exact hd
        · exact iter_leave hd
      · exact hrest { s with parser := _ } _ h

theorem leaves_iterate {env : Env Z} {s : Session Z} (a : Nat) (d : Bytes) (h : NoneThrew env s.trace) : IterLeaves env (s.iterate env a d) := by
  unfold Session.iterate
  have hbody : ∀ (s : Session Z) (d : Bytes), NoneThrew env s.trace →
      IterLeaves env (if !s.parser.frame_payload_complete then s.payload_part env a d else .next { s with parser := s.parser.next_frame } d) := by
    intro s d h
    split
    · exact leaves_payload a d h
    · exact h
  split
  · exact h
  · simp only
    split
    · split
      · exact .inl h
      · split
        · exact iter_leave (leaves_close _ _ h)
        · split
          · exact h
          · exact hbody { s with parser := _ } _ h
    · exact hbody _ _ h

theorem leaves_fuel {env : Env Z} (a n : Nat) : ∀ (s : Session Z) (d : Bytes), NoneThrew env s.trace →
    Leaves env (s.stream_fuel env a n d).1.trace ((s.stream_fuel env a n d).2.2 == some true) := by
  induction n with
  | zero => intro s d h; exact .inl h
  | succ n ih =>
    intro s d h
    have hi := leaves_iterate (env := env) a d h
    unfold Session.stream_fuel
    split <;> rename_i hx <;> rw [hx] at hi
    · exact ih _ _ hi
    · exact .inl hi
    · exact hi

theorem leaves_stream {env : Env Z} {s : Session Z} (a : Nat) (d : Bytes) (h : NoneThrew env s.trace) :
    Leaves env (s.stream env a d).1.trace ((s.stream env a d).2.2 == some true) := leaves_fuel a _ s d h

end Verif.Ws

namespace Verif.WsServer
open Verif.Ws Verif.Spec
variable {Z : Type}

theorem leaves_wclose {g : Cfg Z} {w : W Z} (n : Nat) (r : Bytes) (h : NoneThrew g.env w.ws.trace) : Leaves g.env (w.close g n r).ws.trace (w.close g n r).threw := by
  unfold W.close
  exact (leaves_close n r h).mono (fun h => by simp [h])

theorem leaves_wcomplete {g : Cfg Z} {w : W Z} (x : HttpRequest.Headers) (e : Bool) (h : NoneThrew g.env w.ws.trace) : Leaves g.env (w.complete g x e).1.ws.trace (w.complete g x e).1.threw := by
  unfold W.complete
  split
  · exact .inl h
  · split
    · exact .inl h
    · simp only
      split
      · exact .inl h
      · split
        · exact leaves_wclose (w := { w with ws := _, responses := _ }) _ _ h
        · exact leaves_push .accepted h

theorem leaves_werror {g : Cfg Z} {w : W Z} (n : Nat) (h : NoneThrew g.env w.ws.trace) : Leaves g.env (w.error g n).ws.trace (w.error g n).threw := by
  unfold W.error
  split
  · exact .inl h
  · refine leaves_wclose _ _ ?_; exact h

theorem leaves_step {g : Cfg Z} {w : W Z} (e : HttpServer.Ev) (h : Leaves g.env w.ws.trace w.threw) : Leaves g.env (w.step g e).ws.trace (w.step g e).threw := by
  unfold W.step
  cases ht : w.threw with
  | true => rw [if_pos rfl]; rw [ht] at h ⊢; exact h
  | false =>
    rw [if_neg (by simp)]
    rw [ht] at h
    have hn := h.none
    cases e with
    | headers x eot =>
      simp only
      split
      · exact .inl hn
      · refine leaves_wcomplete x eot ?_; exact hn
    | stream => exact .inl hn
    | finish => exact .inl hn
    | error _ n => refine leaves_werror n ?_; exact hn
    | reject _ n => refine leaves_werror n ?_; exact hn
    | upgraded d => exact leaves_stream _ d hn

theorem leaves_of {g : Cfg Z} (t : List HttpServer.Ev) : ∀ {w : W Z}, Leaves g.env w.ws.trace w.threw → Leaves g.env (W.of g w t).ws.trace (W.of g w t).threw := by
  induction t with
  | nil => intro w h; exact h
  | cons e t ih => intro w h; exact ih (leaves_step e h)

theorem leaves_serve (g : Cfg Z) (c : HttpRequest.Cfg) (L : HttpLib.Lib) (reads : List HttpServer.Act) (w : W Z) (h : serve g c L reads = some w) : Leaves g.env w.ws.trace w.threw := by
  unfold serve W.reads at h
  split at h
  · cases h
  · cases h
    exact (leaves_of (g := g) _ (w := W.start g) (.inl (none_nil _))).mono (fun h => by simp [h])

end Verif.WsServer

namespace Verif.WsClient
open Verif.Ws Verif.Spec
variable {Z : Type}

theorem leaves_wclose {g : Cfg Z} {w : W Z} (n : Nat) (r : Bytes) (h : NoneThrew g.env w.ws.trace) : Leaves g.env (w.close g n r).ws.trace (w.close g n r).threw := by
  unfold W.close
  exact (leaves_close n r h).mono (fun h => by simp [h])

theorem leaves_shaken {g : Cfg Z} {w : W Z} (p : Parser) (h : NoneThrew g.env w.ws.trace) : Leaves g.env (w.shaken g p).ws.trace (w.shaken g p).threw := by
  unfold W.shaken
  simp only
  split
  · exact leaves_wclose (w := { w with ws := _ }) _ _ h
  · exact leaves_push .accepted h

theorem leaves_finish {g : Cfg Z} {w : W Z} (x : HttpResponse.Headers) (h : NoneThrew g.env w.ws.trace) : Leaves g.env (w.finish g x).ws.trace (w.finish g x).threw := by
  unfold W.finish
  simp only
  split
  · exact .inl h
  · have hs := leaves_shaken (w := { w with heads := w.heads ++ [x], statuses := w.statuses ++ [x.status] }) (by assumption) h
    split
    · exact hs
    · exact hs

theorem leaves_step {g : Cfg Z} {w : W Z} (e : HttpClient.Ev) (h : Leaves g.env w.ws.trace w.threw) : Leaves g.env (w.step g e).ws.trace (w.step g e).threw := by
  unfold W.step
  cases ht : w.threw with
  | true => rw [if_pos rfl]; rw [ht] at h ⊢; exact h
  | false =>
    rw [if_neg (by simp)]
    rw [ht] at h
    have hn := h.none
    cases e with
    | headers => exact .inl hn
    | stream => exact .inl hn
    | finish x => refine leaves_finish x ?_; exact hn
    | shut => exact .inl (none_push hn rfl)
    | abort => exact .inl hn
    | upgraded d => exact leaves_stream _ d hn

theorem leaves_of {g : Cfg Z} (t : List HttpClient.Ev) : ∀ {w : W Z}, Leaves g.env w.ws.trace w.threw → Leaves g.env (W.of g w t).ws.trace (W.of g w t).threw := by
  induction t with
  | nil => intro w h; exact h
  | cons e t ih => intro w h; exact ih (leaves_step e h)

theorem leaves_connect (g : Cfg Z) (c : HttpRequest.Cfg) (L : HttpLib.Lib) (reads : List HttpClient.Act) (w : W Z) (h : connect g c L reads = some w) : Leaves g.env w.ws.trace w.threw := by
  unfold connect W.reads at h
  split at h
  · cases h
  · cases h
    exact (leaves_of (g := g) _ (w := W.start g) (.inl (none_nil _))).mono (fun h => by simp [h])

end Verif.WsClient
