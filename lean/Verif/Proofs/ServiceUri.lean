import Verif.Spec.Connection
import Verif.Proofs.NetRef
/-! # Service URIs -/
namespace Verif.Connection
open Verif.Uri Verif.Spec

theorem findIdx_none {u : Bytes} (h : chr '@' ∉ u ∧ chr '/' ∉ u) : u.findIdx? (fun c => c = chr '@' || c = chr '/') = none := by
  rw [List.findIdx?_eq_none_iff]
  intro c hc
  have h1 : c ≠ chr '@' := fun e => h.1 (e ▸ hc)
  have h2 : c ≠ chr '/' := fun e => h.2 (e ▸ hc)
  simp [h1, h2]

theorem split_user_some (d u rest : Bytes) (h : chr '@' ∉ u ∧ chr '/' ∉ u) : split_user d (u ++ b! "@" ++ rest) = (u, rest) := by
  have hi : (u ++ b! "@" ++ rest).findIdx? (fun c => c = chr '@' || c = chr '/') = some u.length := by
    rw [List.append_assoc, List.findIdx?_append, findIdx_none h]
    have : (b! "@" ++ rest).findIdx? (fun c => c = chr '@' || c = chr '/') = some 0 := by
      show List.findIdx? _ (chr '@' :: rest) = _
      rw [List.findIdx?_cons]; simp
    rw [this]; simp
  unfold split_user
  rw [hi]
  have e : u ++ b! "@" ++ rest = u ++ chr '@' :: rest := by rw [List.append_assoc]; rfl
  simp only [e]
  simp

theorem split_user_cases (d uri : Bytes) :
    (∃ u rest, uri = u ++ b! "@" ++ rest ∧ chr '@' ∉ u ∧ chr '/' ∉ u ∧ split_user d uri = (u, rest)) ∨
    ((∀ a b, uri = a ++ b! "@" ++ b → chr '/' ∈ a) ∧ split_user d uri = (d, uri)) := by
  by_cases h : ∃ u rest, uri = u ++ b! "@" ++ rest ∧ chr '/' ∉ u
  · -- take the shortest
    left
    obtain ⟨u, rest, e, hs⟩ := h
    have e' : uri = u ++ chr '@' :: rest := by rw [e, List.append_assoc]; rfl
    have hm : chr '@' ∈ uri := by rw [e']; simp
    obtain ⟨a, b, hab, ha⟩ := List.eq_append_cons_of_mem hm
    have hsub : chr '/' ∉ a := by
      intro hc
      apply hs
      -- `a` is a prefix of `u`
      have hp : a <+: u := by
        rw [e'] at hab
        rcases List.append_eq_append_iff.mp hab with ⟨c, h1, h2⟩ | ⟨c, h1, h2⟩
        · cases c with
          | nil => simp at h1; exact ⟨[], by simp [h1]⟩
          | cons x c =>
            have : x = chr '@' := by simpa using (List.cons.inj h2).1.symm
            exact absurd (by rw [h1, this]; simp) ha
        · exact ⟨c, h1.symm⟩
      exact hp.subset hc
    have e2 : uri = a ++ b! "@" ++ b := by rw [hab, List.append_assoc]; rfl
    exact ⟨a, b, e2, ha, hsub, by rw [e2]; exact split_user_some d a b ⟨ha, hsub⟩⟩
  · right
    have h' : ∀ a b, uri = a ++ b! "@" ++ b → chr '/' ∈ a := fun a b e => by
      apply Classical.byContradiction; intro hc; exact h ⟨a, b, e, hc⟩
    refine ⟨h', ?_⟩
    unfold split_user
    cases hi : uri.findIdx? (fun c => c = chr '@' || c = chr '/') with
    | none => rfl
    | some t =>
      dsimp only
      rw [if_neg]
      intro hget
      obtain ⟨ht, hx⟩ := List.getElem?_eq_some_iff.mp hget
      have e : uri = uri.take t ++ b! "@" ++ uri.drop (t + 1) := by
        rw [List.append_assoc]
        conv => lhs; rw [← List.take_append_drop t uri, List.drop_eq_getElem_cons ht, hx]
        rfl
      have := h' _ _ e
      obtain ⟨i, hi', hv⟩ := List.getElem_of_mem this
      rw [List.findIdx?_eq_some_iff_getElem] at hi
      obtain ⟨_, _, hmin⟩ := hi
      have hlt : i < t := by
        simp only [List.length_take] at hi'; omega
      have := hmin i hlt
      rw [List.getElem_take] at hv
      simp [hv] at this

theorem port_part (o : Option (Bytes × Nat)) (d : Nat) (h : ∀ t n, o = some (t, n) → t ≠ []) :
    (if ((o.map Prod.fst).getD []).length ≠ 0 then (o.map Prod.snd).getD 0 else d) = (o.map Prod.snd).getD d := by
  cases o with
  | none => simp
  | some x => have := h x.1 x.2 rfl; simp [this]

theorem path_part (o : Option Bytes) (d : Bytes) (h : ∀ t, o = some t → t ≠ []) :
    (if (o.getD []).length ≠ 0 then (o.getD []).drop 1 else d) = (o.map List.tail).getD d := by
  cases o with
  | none => simp
  | some x => have := h x rfl; simp [this]

theorem service_target_eq (d : Target) (uri : Bytes) (t : Target) :
    service_target d uri = some t ↔ ∃ s : ServiceText, s.Valid ∧ s.text = uri ∧ t = s.target d := by
  constructor
  · intro h
    -- the reference
    have key : ∀ user rest, split_user d.user uri = (user, rest) → ∃ ref : Option RefParts, (∀ p, ref = some p → p.Valid) ∧
        (match ref with | none => [] | some p => p.text) = rest ∧
        t = { user := user, host := (ref.map RefParts.host).getD d.host, port := ((ref.bind RefParts.port).map Prod.snd).getD d.port,
              database := ((ref.bind RefParts.path).map List.tail).getD d.database } := by
      intro user rest hs
      unfold service_target at h
      rw [hs] at h
      dsimp only at h
      have hn : (parse_network_reference {} rest).2 = rest.length := by
        apply Classical.byContradiction
        intro hn
        rw [if_pos hn] at h; simp at h
      rw [if_neg (by simpa using hn)] at h
      by_cases h0 : rest = []
      · subst h0
        refine ⟨none, by simp, rfl, ?_⟩
        simp [parse_network_reference, parse_host] at h
        simp [← h]
      · have hne : (parse_network_reference {} rest).2 ≠ 0 := by
          rw [hn]; intro hc; exact h0 (List.length_eq_zero_iff.mp hc)
        obtain ⟨p, h1, h2, _, h4⟩ := parse_sound {} rest hne
        refine ⟨some p, ?_, ?_, ?_⟩
        · intro q hq; cases hq; exact h1
        · rw [hn, List.take_length] at h2; exact h2.symm
        · rw [h4] at h
          simp only [Option.some.injEq] at h
          rw [← h]
          have hh := h1.host_nonempty
          simp only [store, Option.map_some, Option.getD_some, Option.bind_some]
          congr 1
          · simp [hh]
          · exact port_part _ _ (fun t n e => (h1.port_num t n e).1)
          · refine path_part _ _ (fun t e => ?_)
            obtain ⟨⟨t', ht⟩, _⟩ := h1.path_chars t e
            subst ht
            simp
    rcases split_user_cases d.user uri with ⟨u, rest, e, h1, h2, hs⟩ | ⟨hno, hs⟩
    · obtain ⟨ref, hv, ht, ht'⟩ := key _ _ hs
      refine ⟨⟨some u, ref⟩, ⟨?_, hv, by simp⟩, ?_, ?_⟩
      · intro v hv; cases hv; exact ⟨h1, h2⟩
      · rw [e, ← ht]; rfl
      · rw [ht']; rfl
    · obtain ⟨ref, hv, ht, ht'⟩ := key _ _ hs
      have htext : ServiceText.text ⟨none, ref⟩ = uri := by rw [← ht]; rfl
      refine ⟨⟨none, ref⟩, ⟨by simp, hv, ?_⟩, htext, ?_⟩
      · intro _ a b e; rw [htext] at e; exact hno a b e
      · rw [ht']; rfl
  · rintro ⟨s, hv, rfl, rfl⟩
    have hs : split_user d.user s.text = (s.user.getD d.user, (match s.ref with | none => [] | some p => p.text)) := by
      obtain ⟨user, ref⟩ := s
      cases user with
      | some u => exact split_user_some _ _ _ (hv.user_chars u rfl)
      | none =>
        rcases split_user_cases d.user (ServiceText.text ⟨none, ref⟩) with ⟨u, rest, e, h1, h2, _⟩ | ⟨_, hs⟩
        · exact absurd (hv.no_at rfl _ _ e) h2
        · rw [hs]; rfl
    unfold service_target
    rw [hs]
    dsimp only
    obtain ⟨user, ref⟩ := s
    cases ref with
    | none => simp [parse_network_reference, parse_host, ServiceText.target]
    | some p =>
      have h1 := hv.ref_valid p rfl
      have := parse_complete {} p h1 [] (by intro c hc; simp at hc)
      rw [List.append_nil] at this
      dsimp only
      rw [this]
      dsimp only
      rw [if_neg (by simp)]
      congr 1
      have hh := h1.host_nonempty
      simp only [store, ServiceText.target, Option.map_some, Option.getD_some, Option.bind_some]
      congr 1
      · simp [hh]
      · exact port_part _ _ (fun t n e => (h1.port_num t n e).1)
      · refine path_part _ _ (fun t e => ?_)
        obtain ⟨⟨t', ht⟩, _⟩ := h1.path_chars t e
        subst ht
        simp

end Verif.Connection
