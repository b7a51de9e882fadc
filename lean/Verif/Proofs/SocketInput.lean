import Verif.Proofs.SocketNet
namespace Verif.Socket

/-! ### Input -/

theorem advance_shown {ssl s t f r o s'} (h : advance ssl s t f r o = some s') (hi : shownBytes s.trace = receivedBytes s.trace) :
    shownBytes s'.trace = receivedBytes s'.trace := by
  adv h f <;> simp only [emit_trace, go_trace, shownBytes, receivedBytes, hi, List.append_nil] <;> (split <;> simpa [shownBytes, receivedBytes] using hi)

theorem shown {ssl s} (h : Reachable ssl s) : shownBytes s.trace = receivedBytes s.trace := by
  induction h with
  | init => rfl
  | @step s s' a hrch hs ih =>
    rcases step_cases hs with ⟨t, f, rfl, hm, hf⟩ | ⟨t, d, rfl, hm⟩ | ⟨t, f, r, o, hr, hw, hadv⟩ | ⟨fl, -, -, -, rfl⟩ | ⟨fl, n, h0, he, rfl⟩
    · exact ih
    · exact ih
    · exact advance_shown hadv ih
    · exact ih
    · exact ih

/-- The stream callback always removes all bytes. -/
def Polite (tr : List Ev) : Prop := ∀ a b, tr = a ++ Ev.stream_done :: b → unread b = []

/-- Every stream callback gets what has been received and not been removed. -/
def Kept (tr : List Ev) : Prop := ∀ a b d e, tr = a ++ Ev.stream d e :: b → d = unread b

def InStream (s : Sys) : Prop := ∃ e, Frame.cb_stream e ∈ s.stk 0

theorem Polite.of_append {es tr : List Ev} (h : Polite (es ++ tr)) : Polite tr := by
  intro a b heq
  exact h (es ++ a) b (by rw [heq, List.append_assoc])

def Ev.inert : Ev → Bool
  | .received _ | .stream .. | .consume _ => false
  | _ => true

theorem Kept.append {es tr : List Ev} (h : Kept tr) (he : ∀ e ∈ es, e.inert = true) : Kept (es ++ tr) ∧ unread (es ++ tr) = unread tr := by
  induction es with
  | nil => exact ⟨h, rfl⟩
  | cons e es ih =>
    obtain ⟨i1, i2⟩ := ih fun e h => he e (List.mem_cons_of_mem _ h)
    have h0 := he e (by simp)
    refine ⟨?_, ?_⟩
    · intro a b d x heq
      cases a with
      | nil => rw [(List.cons.inj heq).1] at h0; exact nomatch h0
      | cons y a => exact i1 a b d x (List.cons.inj heq).2
    · cases e <;> first | exact i2 | exact nomatch h0

structure Input (s : Sys) : Prop where
  inside : InStream s → s.rq = unread s.trace
  outside : ¬ InStream s → unread s.trace = []
  kept : Kept s.trace

theorem Input.congr {s s' : Sys} {es : List Ev} (h : Input s) (hq : s'.rq = s.rq) (ht : s'.trace = es ++ s.trace) (he : ∀ e ∈ es, e.inert = true)
    (hs : InStream s' ↔ InStream s) : Input s' := by
  obtain ⟨k1, k2⟩ := h.kept.append he
  rw [← ht] at k1 k2
  exact ⟨fun hi => by rw [hq, k2]; exact h.inside (hs.1 hi), fun hi => by rw [k2]; exact h.outside fun h => hi (hs.2 h), k1⟩

theorem place_rd {t r} (h : Place t .rd r) : ∃ fl n r', r = .net_hup fl n :: r' := by
  unfold Place at h
  split at h <;> simp_all

theorem place_wr {t r} (h : Place t .wr r) : ∃ fl n r', r = .net_in fl n :: r' := by
  unfold Place at h
  split at h <;> simp_all

theorem place_net {t r} (h : Place t .net r) : r = [] ∧ t = 0 := by
  unfold Place at h
  split at h <;> simp_all

theorem rd_stack {t f r} (h : Shape t (f :: r)) (hk : f.kind = .rd) : t = 0 ∧ ∃ fl n, r = [.net_hup fl n] := by
  have h1 := h.1
  rw [hk] at h1
  obtain ⟨fl, n, r', rfl⟩ := place_rd h1
  obtain ⟨rfl, rfl⟩ := place_net h.2.1
  exact ⟨rfl, fl, n, rfl⟩

theorem advance_quiet {ssl s t f r o s'} (h : advance ssl s t f r o = some s') (hr : s.stk t = f :: r) (hk : f.kind ≠ .rd) :
    s'.rq = s.rq ∧ (∃ es, s'.trace = es ++ s.trace ∧ (∀ e ∈ es, e.inert = true)) ∧ ∀ e, Frame.cb_stream e ∈ s'.stk t ↔ Frame.cb_stream e ∈ s.stk t := by
  refine ⟨?_, ?_, ?_⟩
  · adv h f <;> first | rfl | (split <;> rfl) | exact absurd rfl hk
  · adv h f <;> first
      | exact ⟨[], rfl, fun _ h => nomatch h⟩ | (refine ⟨[_], rfl, ?_⟩; simp [Ev.inert]; done) | (refine ⟨[_, _], rfl, ?_⟩; simp [Ev.inert]; done)
      | (split <;> refine ⟨[_], rfl, ?_⟩ <;> simp [Ev.inert] <;> done) | exact absurd rfl hk
  · intro e
    adv h f <;> first | exact absurd rfl hk | (simp_all; done) | (split <;> simp_all; done) | (simp_all; split <;> simp_all; done)

theorem advance_input {ssl s t f r o s'} (h : advance ssl s t f r o = some s') (hr : s.stk t = f :: r) (hsh : Shape t (f :: r))
    (hp : Polite s'.trace) (hi : Input s) : Input s' := by
  by_cases hk : f.kind = .rd
  · obtain ⟨rfl, fl, n, rfl⟩ := rd_stack hsh hk
    cases f with
    | rd_loop =>
      have hout : ¬ InStream s := by rintro ⟨e, he⟩; rw [hr] at he; simp at he
      have hu := hi.outside hout
      simp only [advance] at h
      split at h
      · rename_i d
        split at h
        · exact nomatch h
        · cases h
          refine ⟨fun _ => ?_, fun hn => absurd ⟨false, by simp⟩ hn, ?_⟩
          · simp [unread, hu]
          · intro a b d' e heq
            cases a with
            | nil => obtain ⟨h1, h2⟩ := List.cons.inj heq; cases h1; rw [← h2]; simp [unread, hu]
            | cons y a =>
              cases a with
              | nil => have := (List.cons.inj (List.cons.inj heq).2).1; exact nomatch this
              | cons z a => exact hi.kept a b d' e (List.cons.inj (List.cons.inj heq).2).2
      · cases h
        refine ⟨fun _ => ?_, fun hn => absurd ⟨true, by simp⟩ hn, ?_⟩
        · simp [unread, hu]
        · intro a b d' e heq
          cases a with
          | nil => obtain ⟨h1, h2⟩ := List.cons.inj heq; cases h1; rw [← h2]; simp [hu]
          | cons y a => exact hi.kept a b d' e (List.cons.inj heq).2
      · cases h
        exact ⟨fun ⟨e, he⟩ => by simp at he, fun _ => hu, hi.kept⟩
      · cases h
        exact ⟨fun ⟨e, he⟩ => by simp at he, fun _ => hu, hi.kept⟩
      · exact nomatch h
    | cb_stream eof =>
      have hin : InStream s := ⟨eof, by rw [hr]; simp⟩
      have hq := hi.inside hin
      simp only [advance] at h
      split at h
      · split at h
        · cases h
          refine ⟨fun _ => by simp [unread, hq], fun hn => absurd ⟨eof, by simp [hr]⟩ hn, ?_⟩
          intro a b d' e heq
          cases a with
          | nil => exact nomatch (List.cons.inj heq).1
          | cons y a => exact hi.kept a b d' e (List.cons.inj heq).2
        · exact nomatch h
      · cases h
        have hu : unread s.trace = [] := hp [] s.trace rfl
        refine ⟨fun ⟨e, he⟩ => ?_, fun _ => hu, (hi.kept.append (es := [_]) (by simp [Ev.inert])).1⟩
        simp at he
        split at he <;> simp at he
      · cases h
        have hu : unread s.trace = [] := hp [] s.trace rfl
        exact ⟨fun ⟨e, he⟩ => by simp at he, fun _ => hu, (hi.kept.append (es := [_]) (by simp [Ev.inert])).1⟩
      · exact nomatch h
    | _ => exact nomatch hk
  · obtain ⟨h1, ⟨es, h2, h3⟩, h4⟩ := advance_quiet h hr hk
    refine hi.congr h1 h2 h3 ?_
    by_cases ht : t = 0
    · subst ht
      exact ⟨fun ⟨e, he⟩ => ⟨e, (h4 e).1 he⟩, fun ⟨e, he⟩ => ⟨e, (h4 e).2 he⟩⟩
    · have := (advance_shape h hr hsh).2 0 (fun h => ht h.symm)
      unfold InStream
      rw [this]

theorem input {ssl s} (h : Reachable ssl s) (hp : Polite s.trace) : Input s := by
  induction h with
  | init => exact ⟨fun ⟨_, h⟩ => (nomatch h), fun _ => rfl, fun a b d e h => by simp at h⟩
  | @step s s' a hrch hs ih =>
    rcases step_cases hs with ⟨t, f, rfl, hm, hf⟩ | ⟨t, d, rfl, hm⟩ | ⟨t, f, r, o, hr, hw, hadv⟩ | ⟨fl, -, -, -, rfl⟩ | ⟨fl, n, h0, he, rfl⟩
    · refine (ih hp).congr (es := []) rfl rfl (by simp) ?_
      unfold InStream
      by_cases ht : 0 = t
      · subst ht; rcases hf with rfl | rfl <;> simp
      · simp [ht]
    · refine (ih (Polite.of_append (es := [_]) hp)).congr (es := [_]) rfl rfl (by simp [Ev.inert]) ?_
      unfold InStream
      by_cases ht : 0 = t
      · subst ht; simp
      · simp [ht]
    · have hsh := shape hrch t
      rw [hr] at hsh
      obtain ⟨es, he⟩ := advance_trace hadv
      exact advance_input hadv hr hsh hp (ih (by rw [he] at hp; exact hp.of_append))
    · exact (ih hp).congr (es := []) rfl rfl (by simp) Iff.rfl
    · refine (ih hp).congr (es := []) rfl rfl (by simp) ?_
      unfold InStream
      simp [h0]

/-! ### Establishment -/

theorem advance_connected {ssl s t f r o s'} (h : advance ssl s t f r o = some s') :
    (s'.trace.count .connected = s.trace.count .connected) ∨ (s'.trace.count .connected = s.trace.count .connected + 1 ∧ s.state = .pending ∧ s'.state = .established) := by
  adv h f <;> simp_all [List.count_cons] <;> (split <;> simp_all [List.count_cons])

theorem connected_once {ssl s} (h : Reachable ssl s) : s.trace.count .connected ≤ 1 ∧ (Ev.connected ∈ s.trace → s.state.rank ≥ 1) := by
  induction h with
  | init => simp
  | @step s s' a hrch hs ih =>
    have mono := step_mono hs
    have key : s'.trace.count .connected = s.trace.count .connected → s'.trace.count .connected ≤ 1 ∧ (Ev.connected ∈ s'.trace → s'.state.rank ≥ 1) := by
      intro hc
      refine ⟨by rw [hc]; exact ih.1, fun hm => Nat.le_trans (ih.2 ?_) mono⟩
      rw [← List.count_pos_iff] at hm ⊢
      omega
    rcases step_cases hs with ⟨t, f, rfl, hm, hf⟩ | ⟨t, d, rfl, hm⟩ | ⟨t, f, r, o, hr, hw, hadv⟩ | ⟨fl, -, -, -, rfl⟩ | ⟨fl, n, h0, he, rfl⟩
    · exact key rfl
    · exact key (by simp [List.count_cons])
    · rcases advance_connected hadv with h | ⟨h1, h2, h3⟩
      · exact key h
      · have h0 : Ev.connected ∉ s.trace := fun hm => by have := ih.2 hm; rw [h2] at this; simp [State.rank] at this
        rw [← List.count_eq_zero] at h0
        exact ⟨by omega, fun _ => by rw [h3]; decide⟩
    · exact key rfl
    · exact key rfl

/-! ### Throttling -/

theorem advance_throttle {ssl s t f r o s'} (h : advance ssl s t f r o = some s') (hi : s.write_only = s.throttled) :
    s'.write_only = s'.throttled ∧ ((∀ n, f ≠ .net_fin false n) → s'.write_only = s.write_only) ∧ (∀ n, f = .net_fin false n → (s'.write_only = true ↔ s.wq.length > n)) := by
  cases f with
  | net_fin del n =>
    simp only [advance] at h
    split at h
    · cases h; simp_all
    · cases h
      rename_i hd
      have hd : del = false := by simpa using hd
      subst hd
      refine ⟨?_, fun h => absurd rfl (h n), ?_⟩
      · simp only [emit_write_only, emit_throttled]; split
        · rfl
        · exact hi
      · intro m hm
        cases hm
        simp only [emit_write_only]
        split
        · simp
        · rename_i hc
          simp only [ne_eq, Decidable.not_not] at hc
          simp only [go_write_only]
          rw [hi, hc]; simp
  | _ =>
    simp only [advance] at h
    (repeat' split at h) <;> cases h <;> simp_all <;> (split <;> simp_all)

theorem throttle {ssl s} (h : Reachable ssl s) : s.write_only = s.throttled := by
  induction h with
  | init => rfl
  | @step s s' a hrch hs ih =>
    rcases step_cases hs with ⟨t, f, rfl, hm, hf⟩ | ⟨t, d, rfl, hm⟩ | ⟨t, f, r, o, hr, hw, hadv⟩ | ⟨fl, -, -, -, rfl⟩ | ⟨fl, n, h0, he, rfl⟩
    · exact ih
    · exact ih
    · exact (advance_throttle hadv ih).1
    · exact ih
    · exact ih

theorem advance_sub {ssl s t f r o s'} (h : advance ssl s t f r o = some s') (hi : s.write_only = s.throttled) :
    ((∃ es, s'.trace = es ++ s.trace ∧ ∀ e ∈ es, ∀ wo q n, e ≠ .subscribed wo q n) ∧ s'.write_only = s.write_only) ∨
    (∃ n, f = .net_fin false n ∧ s'.wq = s.wq ∧ s'.trace = .subscribed s'.write_only s.wq.length n :: s.trace ∧ (s'.write_only = true ↔ s.wq.length > n)) := by
  by_cases hf : ∃ n, f = .net_fin false n
  · obtain ⟨n, rfl⟩ := hf
    refine .inr ⟨n, rfl, ?_, ?_, (advance_throttle h hi).2.2 n rfl⟩
    · simp only [advance] at h; cases h; simp only [emit_wq]; split <;> rfl
    · simp only [advance] at h; cases h; simp only [emit_trace, emit_write_only]; split <;> rfl
  · refine .inl ⟨?_, (advance_throttle h hi).2.1 fun n hn => hf ⟨n, hn⟩⟩
    adv h f <;> first
      | exact ⟨[], rfl, fun _ h => nomatch h⟩ | (refine ⟨[_], rfl, ?_⟩; simp; done) | (refine ⟨[_, _], rfl, ?_⟩; simp; done)
      | (split <;> refine ⟨[_], rfl, ?_⟩ <;> simp <;> done) | (exfalso; apply hf; simp_all; done)

theorem lastSub_append {es tr : List Ev} (h : ∀ e ∈ es, ∀ wo q n, e ≠ .subscribed wo q n) : lastSub (es ++ tr) = lastSub tr := by
  induction es with
  | nil => rfl
  | cons e es ih =>
    have i := ih fun e' h' => h e' (List.mem_cons_of_mem _ h')
    have h0 := h e (by simp)
    cases e <;> first | exact i | exact absurd rfl (h0 _ _ _)

theorem subscription {ssl s} (h : Reachable ssl s) :
    (∀ wo q n, Ev.subscribed wo q n ∈ s.trace → (wo = true ↔ q > n)) ∧ s.write_only = (lastSub s.trace).getD false := by
  induction h with
  | init => exact ⟨nofun, rfl⟩
  | @step s s' a hrch hs ih =>
    obtain ⟨i1, i2⟩ := ih
    rcases step_cases hs with ⟨t, f, rfl, hm, hf⟩ | ⟨t, d, rfl, hm⟩ | ⟨t, f, r, o, hr, hw, hadv⟩ | ⟨fl, -, -, -, rfl⟩ | ⟨fl, n, h0, he, rfl⟩
    · exact ⟨i1, i2⟩
    · exact ⟨fun wo q n h => i1 wo q n (by simpa using h), i2⟩
    · rcases advance_sub hadv (throttle hrch) with ⟨⟨es, h1, h2⟩, h3⟩ | ⟨n, -, h1, h2, h3⟩
      · rw [h1, h3, lastSub_append h2]
        refine ⟨fun wo q n hm => ?_, i2⟩
        rcases List.mem_append.1 hm with hm | hm
        · exact absurd rfl (h2 _ hm wo q n)
        · exact i1 wo q n hm
      · rw [h2]
        refine ⟨fun wo q n hm => ?_, rfl⟩
        rcases List.mem_cons.1 hm with hm | hm
        · cases hm; exact h3
        · exact i1 wo q n hm
    · exact ⟨i1, i2⟩
    · exact ⟨i1, i2⟩

end Verif.Socket
