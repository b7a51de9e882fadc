import Verif.Proofs.SocketShut
namespace Verif.Socket

/-! ### The closed callback -/

/-- Frames of thread 0 that can still be there when the socket has been told that it is closed. -/
def Frame.last : Frame → Bool
  | .net_fin true _ => true
  | f => match f.kind with | .quick | .api | .closed => true | _ => false

/-- Nothing is reported after the first `on_closed`. -/
def Final (tr : List Ev) : Prop := ∀ a b, tr = a ++ Ev.on_closed :: b → ∀ e ∈ a, e.isCallback = false

theorem Final.append {es tr : List Ev} (h : Final tr) (he : ∀ e ∈ es, e.isCallback = false) : Final (es ++ tr) := by
  induction es with
  | nil => exact h
  | cons e es ih =>
    intro a b heq
    cases a with
    | nil => have := (List.cons.inj heq).1; have h2 := he e (by simp); rw [this] at h2; exact nomatch h2
    | cons y a =>
      obtain ⟨h1, h2⟩ := List.cons.inj heq
      intro x hx
      rcases List.mem_cons.1 hx with rfl | hx
      · rw [← h1]; exact he e (by simp)
      · exact ih (fun e h => he e (List.mem_cons_of_mem _ h)) a b h2 x hx

theorem Final.first {tr : List Ev} {e : Ev} (h : Ev.on_closed ∉ tr) : Final (e :: tr) := by
  intro a b heq
  cases a with
  | nil => exact nofun
  | cons y a => exact absurd (by rw [(List.cons.inj heq).2]; simp) h

theorem api_of_other {t f r} (h : Shape t (f :: r)) (ht : t ≠ 0) : f.kind = .quick ∨ f.kind = .api := by
  induction r generalizing f with
  | nil => have := h.1; simp_all [Place]
  | cons g r ih =>
    have hg := ih h.2
    have hf := h.1
    clear ih h
    cases g <;> simp_all [Place, Frame.kind]

theorem advance_closed {ssl s t f r o s'} (h : advance ssl s t f r o = some s') (hr : s.stk t = f :: r) (hsh : Shape t (f :: r)) :
    s'.event = s.event ∧
    ((f.kind = .quick ∨ f.kind = .api ∨ f.last = true) →
      (∃ es, s'.trace = es ++ s.trace ∧ ∀ e ∈ es, e.isCallback = false) ∧
      ((∀ g ∈ s.stk t, g.last = true) → ∀ g ∈ s'.stk t, g.last = true) ∧
      (s'.stk 0 = [] → t = 0 → (∀ g ∈ s.stk t, g.last = true) → s'.registered = false) ∧ (s.registered = false → s'.registered = false)) ∧
    ((∃ es, s'.trace = es ++ s.trace ∧ Ev.on_closed ∉ es) ∨
      (t = 0 ∧ s'.trace = Ev.on_closed :: s.trace ∧ (∀ g ∈ s'.stk 0, g.last = true) ∧ s'.stk 0 ≠ [])) := by
  have hn : f.kind = .net → t = 0 ∧ r = [] := by
    intro hk
    have := hsh.1
    rw [hk] at this
    unfold Place at this
    split at this <;> simp_all
  have hnn : f.kind ≠ .net → t = 0 → r ≠ [] := by
    intro hk h0 hr0
    have := hsh.1
    subst h0
    rw [hr0] at this
    simp_all [Place]
  refine ⟨?_, ?_, ?_⟩
  · adv h f <;> first | rfl | (split <;> rfl)
  · intro hk
    refine ⟨?_, ?_, ?_, ?_⟩
    · adv h f <;> first
        | (exfalso; simp [Frame.kind, Frame.last] at hk; done)
        | exact ⟨[], rfl, by simp⟩ | exact ⟨[_], rfl, by simp [Ev.isCallback]⟩ | simp_all [Frame.kind, Frame.last]
    · intro ha
      adv h f <;> simp_all [Frame.kind, Frame.last]
    · intro h0 ht ha
      subst ht
      adv h f <;> first
        | (simp only [emit_stk, go_stk, if_true, reduceCtorEq, hr] at h0; done)
        | (simp only [emit_stk, go_stk, if_true] at h0; have hx := hnn; simp only [Frame.kind, ne_eq, reduceCtorEq, not_false_eq_true, forall_const] at hx; exact absurd h0 (by first | exact hx trivial rfl | exact hx trivial | exact hx))
        | (exfalso; simp [Frame.kind, Frame.last] at hk; done)
        | rfl
        | (exfalso; simp_all [Frame.kind, Frame.last])
    · adv h f <;> simp_all [Frame.kind, Frame.last]
  · adv h f <;> first
      | exact .inl ⟨[], rfl, List.not_mem_nil⟩ | (refine .inl ⟨[_], rfl, ?_⟩; simp; done) | (refine .inl ⟨[_, _], rfl, ?_⟩; simp; done)
      | (split <;> refine .inl ⟨[_], rfl, ?_⟩ <;> simp <;> done)
      | (obtain ⟨rfl, rfl⟩ := hn rfl; exact .inr ⟨rfl, rfl, by simp [Frame.last, Frame.kind], by simp⟩)

/-- What is known once the closed callback has been called. -/
structure Closed (s : Sys) : Prop where
  event : s.stk 0 ≠ [] → s.event = none
  final : Final s.trace
  after : Ev.on_closed ∈ s.trace → s.event = none ∧ (s.stk 0 = [] → s.registered = false) ∧ ∀ g ∈ s.stk 0, g.last = true

theorem closed {ssl s} (h : Reachable ssl s) : Closed s := by
  induction h with
  | init => exact ⟨fun h => absurd rfl h, fun a b h => by simp at h, nofun⟩
  | @step s s' a hrch hs ih =>
    rcases step_cases hs with ⟨t, f, rfl, hm, hf⟩ | ⟨t, d, rfl, hm⟩ | ⟨t, f, r, o, hr, hw, hadv⟩ | ⟨fl, h1, h2, h3, rfl⟩ | ⟨fl, n, h0, he, rfl⟩
    · by_cases ht : 0 = t
      · subst ht
        have hne : s.stk 0 ≠ [] := by
          rcases hm with ⟨-, h, -⟩ | ⟨g, r, h, -⟩
          · exact absurd rfl h
          · rw [h]; simp
        refine ⟨fun _ => ih.event hne, ih.final, fun hc => ⟨ih.event hne, by simp, ?_⟩⟩
        intro g hg
        simp only [go_stk, if_true, List.mem_cons] at hg
        rcases hg with rfl | hg
        · rcases hf with rfl | rfl <;> rfl
        · exact (ih.after hc).2.2 g hg
      · have e : (s.go t (f :: s.stk t)).stk 0 = s.stk 0 := by simp [ht]
        exact ⟨fun h => ih.event (by rwa [e] at h), ih.final, fun hc => by rw [e]; exact ih.after hc⟩
    · have fin : Final (Ev.call_send s.ids d :: s.trace) := ih.final.append (es := [_]) (by simp [Ev.isCallback])
      by_cases ht : 0 = t
      · subst ht
        have hne : s.stk 0 ≠ [] := by
          rcases hm with ⟨-, h, -⟩ | ⟨g, r, h, -⟩
          · exact absurd rfl h
          · rw [h]; simp
        refine ⟨fun _ => ih.event hne, fin, fun hc => ⟨ih.event hne, by simp, ?_⟩⟩
        intro g hg
        simp only [emit_stk, go_stk, if_true, List.mem_cons] at hg
        rcases hg with rfl | hg
        · rfl
        · exact (ih.after (by simpa using hc)).2.2 g hg
      · have e : (({ s.go t (.send_check s.ids d :: s.stk t) with ids := s.ids + 1 } : Sys).emit (.call_send s.ids d)).stk 0 = s.stk 0 := by simp [ht]
        exact ⟨fun h => ih.event (by rwa [e] at h), fin, fun hc => by rw [e]; exact ih.after (by simpa using hc)⟩
    · have hsh := shape hrch t
      rw [hr] at hsh
      obtain ⟨-, h2⟩ := advance_shape hadv hr hsh
      obtain ⟨c1, c2, c3⟩ := advance_closed hadv hr hsh
      have hne : t = 0 → s.stk 0 ≠ [] := by rintro rfl; rw [hr]; simp
      have hev : s'.stk 0 ≠ [] → s'.event = none := by
        intro h
        rw [c1]
        by_cases ht : t = 0
        · exact ih.event (hne ht)
        · rw [h2 0 (fun h => ht h.symm)] at h; exact ih.event h
      by_cases hc : Ev.on_closed ∈ s.trace
      · have hk : f.kind = .quick ∨ f.kind = .api ∨ f.last = true := by
          by_cases ht : t = 0
          · subst ht
            exact .inr (.inr ((ih.after hc).2.2 f (by rw [hr]; simp)))
          · rcases api_of_other hsh ht with h | h
            · exact .inl h
            · exact .inr (.inl h)
        obtain ⟨⟨es, he, hes⟩, hl, hreg, hreg'⟩ := c2 hk
        have ha := ih.after hc
        refine ⟨hev, by rw [he]; exact ih.final.append hes, fun _ => ⟨by rw [c1]; exact ha.1, ?_, ?_⟩⟩
        · intro h0
          by_cases ht : t = 0
          · exact hreg h0 ht (by subst ht; exact ha.2.2)
          · rw [h2 0 (fun h => ht h.symm)] at h0
            exact hreg' (ha.2.1 h0)
        · by_cases ht : t = 0
          · subst ht; exact hl ha.2.2
          · rw [h2 0 (fun h => ht h.symm)]; exact ha.2.2
      · rcases c3 with ⟨es, he, hes⟩ | ⟨ht, he, hl, hne'⟩
        · have hnot : Ev.on_closed ∉ s'.trace := by rw [he]; simp [hc, hes]
          exact ⟨hev, fun a b h => absurd (by rw [h]; simp) hnot, fun h => absurd h hnot⟩
        · refine ⟨hev, by rw [he]; exact Final.first hc, fun _ => ⟨hev hne', fun h => absurd h hne', hl⟩⟩
    · refine ⟨fun h => absurd h1 h, ih.final, fun hc => ?_⟩
      have := (ih.after hc).2.1 h1
      rw [h3] at this
      exact nomatch this
    · refine ⟨fun _ => rfl, ih.final, fun hc => ?_⟩
      have := (ih.after hc).1
      rw [he] at this
      exact nomatch this

end Verif.Socket
