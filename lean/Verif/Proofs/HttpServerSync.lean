import Verif.Proofs.HttpServerSplit
/-! # HTTP server sessions: when the protocol is switched, if it is at the headers of a request -/
namespace Verif.HttpServer
open Verif.HttpLib Verif.HttpRequest Verif.Spec

/-- A class which may switch to another protocol at the headers of a request, but nowhere else; `sw` tells whether it has. -/
structure Syncs (A : App) (sw : List Ev → Bool) : Prop where
  headers : ∀ t h e, sw (t ++ [.headers h e]) = (sw t || (A.onHeaders t h e).switched)
  other : ∀ t e, (∀ h b, e ≠ .headers h b) → sw (t ++ [e]) = sw t
  finish : ∀ t h b e, A.onFinish t h b e = false
  rejects : ∀ t h e, ∀ x ∈ (A.onHeaders t h e).rejects, x.2 ≠ 101 ∧ x.2 ≠ 204
  type : ∀ t h e, (A.onHeaders t h e).type = .normal ∨ (A.onHeaders t h e).type = .empty

/-- Headers come before the switch, and data of another protocol after it; errors have the status codes of errors. -/
def Timely (sw : List Ev → Bool) (pre : List Ev) : Ev → Prop
  | .headers _ _ => sw pre = false
  | .upgraded _ _ => sw pre = true
  | .error _ n => n ≠ 101 ∧ n ≠ 204
  | .reject _ n => n ≠ 101 ∧ n ≠ 204
  | _ => True

def InStep (sw : List Ev → Bool) (t : List Ev) : Prop := ∀ pre e post, t = pre ++ e :: post → Timely sw pre e

theorem status_bad (e : Errno) : http_status_from_error e ≠ 101 ∧ http_status_from_error e ≠ 204 := by cases e <;> decide

theorem inStep_snoc {sw : List Ev → Bool} {t : List Ev} {e : Ev} (h : InStep sw t) (h1 : Timely sw t e) :
    InStep sw (t ++ [e]) := by
  intro pre x post he
  rcases List.eq_nil_or_concat post with rfl | ⟨u, y, rfl⟩
  · obtain ⟨a, b⟩ := List.append_inj' he rfl
    obtain rfl : e = x := by simpa using b
    subst a
    exact h1
  · rw [List.concat_eq_append, show pre ++ x :: (u ++ [y]) = (pre ++ x :: u) ++ [y] by simp] at he
    obtain ⟨a, -⟩ := List.append_inj' he rfl
    exact h pre x u a

def Sync {L : Lib} (sw : List Ev → Bool) (s : Sess L) : Prop := s.ack = sw s.trace ∧ InStep sw s.trace

def Step.Synced {L : Lib} (sw : List Ev → Bool) : Step L → Prop | .ret s _ => Sync sw s | .next s _ => Sync sw s

variable {A : App} {sw : List Ev → Bool} {c : Cfg} {L : Lib}

theorem sync_congr {s t : Sess L} (h : Sync sw s) (h1 : t.ack = s.ack) (h2 : t.trace = s.trace) : Sync sw t := by
  unfold Sync at *; rw [h1, h2]; exact h

theorem sync_call (hA : Syncs A sw) {s : Sess L} (h : Sync sw s) (e : Ev) (h1 : ∀ x b, e ≠ .headers x b) (h2 : Timely sw s.trace e) : Sync sw (s.call e) :=
  ⟨by show s.ack = sw (s.trace ++ [e]); rw [hA.other _ _ h1]; exact h.1, inStep_snoc h.2 h2⟩

theorem sync_rejects (hA : Syncs A sw) (l : List (Bool × Nat)) (hl : ∀ x ∈ l, x.2 ≠ 101 ∧ x.2 ≠ 204) {s : Sess L} (h : Sync sw s) : Sync sw ({ s with trace := s.trace ++ l.map (fun e => .reject e.1 e.2) } : Sess L) := by
  induction l generalizing s with
  | nil => exact sync_congr h rfl (by simp)
  | cons x l ih =>
    have := ih (fun y hy => hl y (List.mem_cons_of_mem _ hy)) (sync_call hA h (.reject x.1 x.2) (by simp) (hl x (by simp)))
    exact sync_congr this rfl (by simp [Sess.call])

theorem sync_afterParse (hA : Syncs A sw) {s : Sess L} (h : Sync sw s) (ha : s.ack = false) (p : Parser) (rest : Bytes) (eof : Bool) : (afterParse A s p rest eof).Synced sw := by
  unfold afterParse
  split
  · exact sync_call hA (s := { s with p := p }) (sync_congr h rfl rfl) _ (by simp) (status_bad _)
  · split
    · exact sync_congr h rfl rfl
    · simp only
      split
      · exact sync_call hA (s := { s with p := { p with headers := plainHeaders p.headers } }) (sync_congr h rfl rfl) _ (by simp) (by simp [Timely])
      · have ht := hA.type s.trace (plainHeaders p.headers) p.close
        have hh := hA.headers s.trace (plainHeaders p.headers) p.close
        have hr := hA.rejects s.trace (plainHeaders p.headers) p.close
        generalize A.onHeaders s.trace (plainHeaders p.headers) p.close = rep at ht hh hr
        have key : Sync sw ({ s with p := { p with headers := plainHeaders p.headers }, ack := s.ack || rep.switched, trace := s.trace ++ [.headers (plainHeaders p.headers) p.close] } : Sess L) :=
          ⟨by simp only; rw [hh, ← h.1], inStep_snoc h.2 (show sw s.trace = false by rw [← h.1]; exact ha)⟩
        have key2 := sync_rejects hA rep.rejects hr key
        unfold afterHeaders
        rcases ht with ht | ht <;> rw [ht] <;> exact sync_congr key2 rfl rfl

theorem sync_headersPhase (hA : Syncs A sw) {s : Sess L} (h : Sync sw s) (ha : s.ack = false) (data : Bytes) (eof : Bool) : (headersPhase A c s data eof).Synced sw := by
  unfold headersPhase
  split
  · exact h
  · unfold onHead
    split
    · exact sync_congr h rfl rfl
    · rename_i r _
      exact sync_afterParse hA (s := { s with st := r.2.1 }) (sync_congr h rfl rfl) ha _ _ _

theorem sync_payloadPhase (hA : Syncs A sw) {s : Sess L} (h : Sync sw s) (data : Bytes) (eof : Bool) : (payloadPhase A c s data eof).Synced sw := by
  unfold payloadPhase
  split
  · exact h
  · unfold onPayload
    split
    · exact sync_congr h rfl rfl
    · rename_i r _
      unfold afterPayload
      split
      · exact sync_call hA (s := { s with st := r.2.1, p := r.1 }) (sync_congr h rfl rfl) _ (by simp) (status_bad _)
      · have h1 : Sync sw (({ s with st := r.2.1, p := { r.1 with payload := A.onStream s.trace r.1.payload } } : Sess L).call (.stream r.1.payload)) :=
          sync_call hA (sync_congr h rfl rfl) _ (by simp) trivial
        simp only
        split
        · exact h1
        · refine sync_congr (sync_call hA h1 (.finish r.1.headers (A.onStream s.trace r.1.payload) r.1.close) (by simp) trivial) ?_ rfl
          simp [Sess.call, hA.finish]

theorem sync_loop (hA : Syncs A sw) (eof : Bool) (n : Nat) : ∀ (s : Sess L) (data : Bytes), Sync sw s → ∀ r, loop A c eof n s data = some r → Sync sw r.1 := by
  induction n with
  | zero => intro s data _ r hr; simp [loop] at hr
  | succ n ih =>
    intro s data h r hr
    unfold loop at hr
    split at hr
    · rename_i ha
      cases hr
      exact sync_call hA (s := { s with p := deallocate s.p }) (sync_congr h rfl rfl) _ (by simp) (show sw s.trace = true by rw [← h.1]; exact ha)
    · rename_i ha
      have ha : s.ack = false := by simpa using ha
      split at hr
      · cases hr; exact h
      · have h1 := sync_headersPhase (c := c) hA h ha data eof
        split at hr
        · rename_i hx; rw [hx] at h1; cases hr; exact h1
        · rename_i s1 d1 hx
          rw [hx] at h1
          have h2 := sync_payloadPhase (c := c) hA h1 d1 eof
          split at hr
          · rename_i hy; rw [hy] at h2; cases hr; exact h2
          · rename_i s2 d2 hy
            rw [hy] at h2
            exact ih { s2 with p := next_message s2.p } d2 (sync_congr h2 rfl rfl) r hr

theorem sync_run (hA : Syncs A sw) (as : List Act) (hs : .switch ∉ as) : ∀ (s : Sess L) (buf : Bytes), Sync sw s → ∀ r, run A c s buf as = some r → Sync sw r.1 := by
  induction as with
  | nil => intro s buf h r hr; cases hr; exact h
  | cons a as ih =>
    intro s buf h r hr
    cases a with
    | switch => simp at hs
    | receive data eof =>
      unfold run at hr
      split at hr
      · simp at hr
      · rename_i s1 b1 hx
        refine ih (fun h => hs (List.mem_cons_of_mem _ h)) s1 b1 ?_ r hr
        simp only [step] at hx
        split at hx
        · simp only [Option.some.injEq, Prod.mk.injEq] at hx; rw [← hx.1]; exact h
        · unfold do_on_tcp_stream at hx
          split at hx
          · rename_i ha
            simp only [Option.some.injEq, Prod.mk.injEq] at hx
            rw [← hx.1]
            exact sync_call hA h _ (by simp) (show sw s.trace = true by rw [← h.1]; exact ha)
          · exact sync_loop hA eof _ s _ h _ hx

end Verif.HttpServer
