import Verif.Proofs.Stack
/-!
# All steps preserve the ownership invariant of the stack cache
-/
namespace Verif.Stack

/-- Giving stack `c` to another owner does not affect what belongs to a third one. -/
theorem upd_iff {own : Nat → Own} {c : Nat} {y : Own} (hc : own c = y) (o x : Own) (h1 : y ≠ x := by intro e; exact nomatch e)
    (h2 : o ≠ x := by intro e; exact nomatch e) (a : Nat) : upd own c o a = x ↔ own a = x := by
  by_cases h : a = c
  · subst h; rw [upd_same, hc]; exact ⟨fun e => absurd e h2, fun e => absurd e h1⟩
  · rw [upd_other _ _ h]

theorem inv_go {s s' : Sys} {own : Nat → Own} {C : List Nat} {T : Nat → List Nat} {t : Nat} (h : Inv s own C T) (hs : go s t = some s') :
    ∃ own C T, Inv s' own C T := by
  have ht := h.thr t
  unfold go at hs
  split at hs
  -- take
  · rename_i sz hp
    rw [hp] at ht
    cases hs
    have hT : T t = [] := ht
    have hown : ∀ a, own a ≠ .thr t := fun a e => by have := (h.ownT t a).2 e; rw [hT] at this; exact nomatch this
    refine ⟨fun a => if own a = .cache then .thr t else own a, [], upd T t C,
      inv_move h t (.peek sz s.cache) C rfl ?_ (fun _ _ _ _ => ⟨rfl, rfl, rfl⟩) rfl .nil ?_ h.cache h.nodupC ?_ ?_ ?_ ?_ ?_ ?_ h.ub ?_ h.live h.ok⟩
    · intro u a hu
      by_cases hc : own a = .cache
      · rw [if_pos hc, hc]; exact ⟨fun e => absurd (Own.thr.inj e).symm hu, fun e => nomatch e⟩
      · rw [if_neg hc]
    · intro a
      refine ⟨fun e => (nomatch e), fun e => ?_⟩
      by_cases hc : own a = .cache
      · rw [if_pos hc] at e; exact nomatch e
      · rw [if_neg hc] at e; exact absurd e hc
    · intro a
      rw [h.ownC a]
      by_cases hc : own a = .cache
      · rw [if_pos hc]; exact ⟨fun _ => rfl, fun _ => hc⟩
      · rw [if_neg hc]; exact ⟨fun e => absurd e hc, fun e => absurd e (hown a)⟩
    · intro a z ha
      obtain ⟨h1, h2⟩ := h.used a z ha
      exact ⟨by rw [if_neg (by rw [h1]; exact fun e => nomatch e)]; exact h1, h2⟩
    · intro a ha
      by_cases hc : own a = .cache
      · rw [if_pos hc] at ha; exact nomatch ha
      · rw [if_neg hc] at ha; exact h.ownU a ha
    · intro a
      rw [h.maps a]
      by_cases hc : own a = .cache
      · rw [if_pos hc, hc]; exact ⟨fun e => (nomatch e), fun e => (nomatch e)⟩
      · rw [if_neg hc]
    · intro a ha
      by_cases hc : own a = .cache
      · rw [if_pos hc] at ha; exact nomatch ha
      · rw [if_neg hc] at ha; exact absurd ha hc
    · intro a ha _
      by_cases hc : own a = .cache
      · exact h.sizeC a hc
      · rw [if_neg hc] at ha; exact absurd ha (hown a)
    · intro a
      rw [h.inUse a]
      by_cases hc : own a = .cache
      · rw [if_pos hc, hc]; exact ⟨fun e => (nomatch e), fun e => (nomatch e)⟩
      · rw [if_neg hc]
  -- peek, nothing
  · rename_i sz hp
    rw [hp] at ht
    cases hs
    exact inv_pc h t _ rfl rfl rfl rfl rfl rfl rfl h.ub ht (by rw [hp]; rfl)
  -- peek
  · rename_i sz c hp
    rw [hp] at ht
    obtain ⟨r, hT, hr⟩ := chain_some ht
    have hc : own c = .thr t := (h.ownT t c).1 (by rw [hT]; exact List.mem_cons_self ..)
    have hub := inv_touch h (c := c) (by rw [hc]; exact fun e => nomatch e)
    split at hs
    · cases hs
      exact inv_pc h t _ rfl rfl rfl rfl rfl rfl rfl hub ht (by rw [hp]; rfl)
    · rename_i n hn
      cases hs
      exact inv_pc h t _ rfl rfl rfl rfl rfl rfl rfl hub ⟨hn, r, hT, by rw [← hn]; exact hr⟩ (by rw [hp]; rfl)
  -- back
  · rename_i sz c n hp
    rw [hp] at ht
    cases hs
    obtain ⟨hn, r, hT, hr⟩ := ht
    have hnd := h.nodupT t
    rw [hT] at hnd
    have hcr := (List.nodup_cons.1 hnd).1
    have hr' : ∀ a, a ∈ r → own a = .thr t := fun a ha => (h.ownT t a).1 (by rw [hT]; exact List.mem_cons_of_mem _ ha)
    have hc : own c = .thr t := (h.ownT t c).1 (by rw [hT]; exact List.mem_cons_self ..)
    have hcC : c ∉ C := fun e => by rw [(h.ownC c).1 e] at hc; exact nomatch hc
    have hrt : ∀ a, own a = .thr t → a = c ∨ a ∈ r := fun a ha => List.mem_cons.1 (by rw [← hT]; exact (h.ownT t a).2 ha)
    refine ⟨fun a => if a ∈ r then .cache else if own a = .cache then .thr t else own a, r, upd T t (c :: C),
      inv_move h t (.link sz c s.cache) (c :: C) rfl ?_ (fun _ _ _ _ => ⟨rfl, rfl, rfl⟩) hr (List.nodup_cons.1 hnd).2 ?_ ⟨C, rfl, h.cache⟩
        (List.nodup_cons.2 ⟨hcC, h.nodupC⟩) ?_ ?_ ?_ ?_ ?_ ?_ h.ub ?_ h.live h.ok⟩
    · intro u a hu
      by_cases h1 : a ∈ r
      · rw [if_pos h1, hr' a h1]; exact ⟨fun e => (nomatch e), fun e => absurd (Own.thr.inj e).symm hu⟩
      · rw [if_neg h1]
        by_cases hc : own a = .cache
        · rw [if_pos hc, hc]; exact ⟨fun e => absurd (Own.thr.inj e).symm hu, fun e => nomatch e⟩
        · rw [if_neg hc]
    · intro a
      by_cases h1 : a ∈ r
      · rw [if_pos h1]; exact ⟨fun _ => rfl, fun _ => h1⟩
      · rw [if_neg h1]
        refine ⟨fun e => absurd e h1, fun e => ?_⟩
        by_cases hc : own a = .cache
        · rw [if_pos hc] at e; exact nomatch e
        · rw [if_neg hc] at e; exact absurd e hc
    · intro a
      rw [List.mem_cons, h.ownC a]
      by_cases h1 : a ∈ r
      · rw [if_pos h1]
        refine ⟨fun e => ?_, fun e => nomatch e⟩
        rcases e with rfl | e
        · exact absurd h1 hcr
        · rw [hr' a h1] at e; exact nomatch e
      · rw [if_neg h1]
        by_cases hc' : own a = .cache
        · rw [if_pos hc']; exact ⟨fun _ => rfl, fun _ => .inr hc'⟩
        · rw [if_neg hc']
          refine ⟨fun e => ?_, fun e => ?_⟩
          · rcases e with rfl | e
            · exact hc
            · exact absurd e hc'
          · exact (hrt a e).imp id fun e => absurd e h1
    · intro a z ha
      obtain ⟨h1, h2⟩ := h.used a z ha
      refine ⟨?_, h2⟩
      rw [if_neg (fun e => by rw [hr' a e] at h1; exact nomatch h1), if_neg (by rw [h1]; exact fun e => nomatch e)]
      exact h1
    · intro a ha
      by_cases h1 : a ∈ r
      · rw [if_pos h1] at ha; exact nomatch ha
      · rw [if_neg h1] at ha
        by_cases hc : own a = .cache
        · rw [if_pos hc] at ha; exact nomatch ha
        · rw [if_neg hc] at ha; exact h.ownU a ha
    · intro a
      rw [h.maps a]
      by_cases h1 : a ∈ r
      · rw [if_pos h1, hr' a h1]; exact ⟨fun e => (nomatch e), fun e => (nomatch e)⟩
      · rw [if_neg h1]
        by_cases hc : own a = .cache
        · rw [if_pos hc, hc]; exact ⟨fun e => (nomatch e), fun e => (nomatch e)⟩
        · rw [if_neg hc]
    · intro a ha
      by_cases h1 : a ∈ r
      · exact h.sizeT t a (hr' a h1) (by rw [hp]; rfl)
      · rw [if_neg h1] at ha
        by_cases hc : own a = .cache
        · exact h.sizeC a hc
        · rw [if_neg hc] at ha; exact absurd ha hc
    · intro a ha _
      by_cases h1 : a ∈ r
      · rw [if_pos h1] at ha; exact nomatch ha
      · rw [if_neg h1] at ha
        by_cases hc : own a = .cache
        · exact h.sizeC a hc
        · rw [if_neg hc] at ha; exact h.sizeT t a ha (by rw [hp]; rfl)
    · intro a
      rw [h.inUse a]
      by_cases h1 : a ∈ r
      · rw [if_pos h1, hr' a h1]; exact ⟨fun e => (nomatch e), fun e => (nomatch e)⟩
      · rw [if_neg h1]
        by_cases hc : own a = .cache
        · rw [if_pos hc, hc]; exact ⟨fun e => (nomatch e), fun e => (nomatch e)⟩
        · rw [if_neg hc]
  -- link
  · rename_i sz c prev hp
    rw [hp] at ht
    cases hs
    obtain ⟨r, hT, hr⟩ := ht
    have hnd := h.nodupT t
    rw [hT] at hnd
    have hc : own c = .thr t := (h.ownT t c).1 (by rw [hT]; exact List.mem_cons_self ..)
    refine inv_header h t _ c rfl (.inl hc) (fun a ha => upd_other _ _ ha) (fun _ _ => rfl) rfl rfl rfl rfl
      (inv_touch h (by rw [hc]; exact fun e => nomatch e)) ?_ (fun a ha _ => h.sizeT t a ha (by rw [hp]; rfl))
    rw [hT]
    refine ⟨rfl, ?_⟩
    show Chain (upd s.next c prev) (upd s.next c prev c) r
    rw [upd_same]
    exact chain_upd (List.nodup_cons.1 hnd).1 hr
  -- loop
  · rename_i sz c hp
    rw [hp] at ht
    obtain ⟨r, hT, hr⟩ := chain_some ht
    have hc : own c = .thr t := (h.ownT t c).1 (by rw [hT]; exact List.mem_cons_self ..)
    have hub := inv_touch h (c := c) (by rw [hc]; exact fun e => nomatch e)
    have hmc := h.sizeT t c hc (by rw [hp]; rfl)
    split at hs
    · cases hs
      exact inv_pc h t _ rfl rfl rfl rfl rfl rfl rfl hub ⟨hmc, r, hT, hr⟩ (by rw [hp]; rfl)
    · rename_i hne
      have hn : s.next c = none := Classical.byContradiction fun e => hne (.inl e)
      have hz : s.size c = sz := Classical.byContradiction fun e => hne (.inr e)
      cases hs
      rw [hn] at hr
      have hr := chain_none hr
      subst hr
      refine ⟨upd own c .used, C, upd T t [], inv_move h t .idle [] rfl ?_ (fun _ _ _ _ => ⟨rfl, rfl, rfl⟩) h.cache h.nodupC ?_ rfl .nil ?_ ?_ ?_ ?_ ?_ ?_ hub ?_ ?_ ?_⟩
      · intro u a hu
        exact upd_iff hc _ (.thr u) (h1 := fun e => hu (Own.thr.inj e).symm) (a := a)
      · intro a
        rw [h.ownC a]; exact (upd_iff hc .used .cache (a := a)).symm
      · intro a
        refine ⟨fun e => (nomatch e), fun e => ?_⟩
        by_cases hac : a = c
        · subst hac; rw [upd_same] at e; exact nomatch e
        · rw [upd_other _ _ hac] at e
          have := (h.ownT t a).2 e
          rw [hT] at this
          exact absurd (List.mem_singleton.1 this) hac
      · intro a z ha
        rcases List.mem_cons.1 ha with e | ha
        · cases e; exact ⟨upd_same .., hmc⟩
        · obtain ⟨h1, h2⟩ := h.used a z ha
          refine ⟨?_, h2⟩
          rw [upd_other _ _ (fun e => by subst e; rw [hc] at h1; exact nomatch h1)]; exact h1
      · intro a ha
        by_cases hac : a = c
        · subst hac; exact ⟨_, List.mem_cons_self ..⟩
        · rw [upd_other _ _ hac] at ha
          obtain ⟨z, hz⟩ := h.ownU a ha
          exact ⟨z, List.mem_cons_of_mem _ hz⟩
      · intro a
        rw [upd_iff hc .used .none]; exact h.maps a
      · intro a ha
        rw [upd_iff hc .used .cache] at ha; exact h.sizeC a ha
      · intro a ha _
        by_cases hac : a = c
        · subst hac; rw [upd_same] at ha; exact nomatch ha
        · rw [upd_other _ _ hac] at ha; exact h.sizeT t a ha (by rw [hp]; rfl)
      · intro a
        show (if c = a then true else inUse a s.trace) = true ↔ _
        by_cases hac : a = c
        · subst hac; simp
        · rw [if_neg (fun e => hac e.symm), upd_other _ _ hac]; exact h.inUse a
      · exact h.live
      · refine ⟨?_, by rw [h.live c]; exact hmc, hz, h.ok⟩
        cases hu : inUse c s.trace with
        | false => rfl
        | true => rw [h.inUse c, hc] at hu; exact nomatch hu
  -- drop
  · rename_i sz c z n hp
    rw [hp] at ht
    cases hs
    obtain ⟨hm, r, hT, hr⟩ := ht
    have hnd := h.nodupT t
    rw [hT] at hnd
    have hc : own c = .thr t := (h.ownT t c).1 (by rw [hT]; exact List.mem_cons_self ..)
    have hcr := (List.nodup_cons.1 hnd).1
    refine ⟨upd own c .none, C, upd T t r, inv_move h t (.loop sz n) r rfl ?_ ?_ h.cache h.nodupC ?_ hr (List.nodup_cons.1 hnd).2 ?_ ?_ ?_ ?_ ?_ ?_ ?_ ?_ ?_ ?_⟩
    · intro u a hu
      exact upd_iff hc _ (.thr u) (h1 := fun e => hu (Own.thr.inj e).symm) (a := a)
    · intro u a hu ha
      refine ⟨rfl, upd_other _ _ ?_, rfl⟩
      rintro rfl; rw [hc] at ha; exact hu (Own.thr.inj ha).symm
    · intro a
      rw [h.ownC a]; exact (upd_iff hc .none .cache (a := a)).symm
    · intro a
      by_cases hac : a = c
      · subst hac; rw [upd_same]; exact ⟨fun e => absurd e hcr, fun e => nomatch e⟩
      · rw [upd_other _ _ hac, ← h.ownT t a, hT]
        exact ⟨List.mem_cons_of_mem _, fun e => (List.mem_cons.1 e).resolve_left hac⟩
    · intro a z ha
      obtain ⟨h1, h2⟩ := h.used a z ha
      have hac : a ≠ c := fun e => by subst e; rw [hc] at h1; exact nomatch h1
      exact ⟨by rw [upd_other _ _ hac]; exact h1, by rw [← h2]; exact upd_other _ _ hac⟩
    · intro a ha
      rw [upd_iff hc .none .used] at ha; exact h.ownU a ha
    · intro a
      by_cases hac : a = c
      · subst hac; rw [upd_same]; exact ⟨fun _ => rfl, fun _ => upd_same ..⟩
      · rw [upd_other _ _ hac]; show upd s.maps c none a = none ↔ _; rw [upd_other _ _ hac]; exact h.maps a
    · intro a ha
      have hac : a ≠ c := fun e => by subst e; rw [upd_same] at ha; exact nomatch ha
      rw [upd_other _ _ hac] at ha
      show upd s.maps c none a = _
      rw [upd_other _ _ hac]; exact h.sizeC a ha
    · intro a ha _
      have hac : a ≠ c := fun e => by subst e; rw [upd_same] at ha; exact nomatch ha
      rw [upd_other _ _ hac] at ha
      show upd s.maps c none a = _
      rw [upd_other _ _ hac]; exact h.sizeT t a ha (by rw [hp]; rfl)
    · show (s.ub || decide (s.maps c ≠ some z)) = false
      rw [h.ub, hm]; simp
    · intro a
      rw [upd_iff hc .none .used]; exact h.inUse a
    · intro a
      show (if c = a then none else live a s.trace) = upd s.maps c none a
      by_cases hac : a = c
      · subst hac; simp
      · rw [if_neg (fun e => hac e.symm), upd_other _ _ hac]; exact h.live a
    · refine ⟨?_, by rw [h.live c]; exact hm, h.ok⟩
      cases hu : inUse c s.trace with
      | false => rfl
      | true => rw [h.inUse c, hc] at hu; exact nomatch hu
  -- reset
  · rename_i c z hp
    rw [hp] at ht
    cases hs
    obtain ⟨hT, hm⟩ := ht
    have hc : own c = .thr t := (h.ownT t c).1 (by rw [hT]; exact List.mem_cons_self ..)
    refine inv_header h t _ c rfl (.inl hc) (fun a ha => upd_other _ _ ha) (fun a ha => upd_other _ _ ha) rfl rfl rfl rfl
      (inv_touch h (by rw [hc]; exact fun e => nomatch e)) hT ?_
    intro a ha _
    have := (h.ownT t a).2 ha
    rw [hT] at this
    cases List.mem_singleton.1 this
    rw [hm]; exact congrArg some (upd_same ..).symm
  -- load
  · rename_i c hp
    rw [hp] at ht
    cases hs
    have hT : T t = [c] := ht
    have hc : own c = .thr t := (h.ownT t c).1 (by rw [hT]; exact List.mem_cons_self ..)
    exact inv_header h t _ c rfl (.inl hc) (fun a ha => upd_other _ _ ha) (fun a ha => rfl) rfl rfl rfl rfl
      (inv_touch h (by rw [hc]; exact fun e => nomatch e)) hT (fun a ha _ => h.sizeT t a ha (by rw [hp]; rfl))
  -- cas
  · rename_i c hp
    rw [hp] at ht
    have hT : T t = [c] := ht
    have hc : own c = .thr t := (h.ownT t c).1 (by rw [hT]; exact List.mem_cons_self ..)
    have hub := inv_touch h (c := c) (by rw [hc]; exact fun e => nomatch e)
    split at hs
    · rename_i he
      cases hs
      have hcC : c ∉ C := fun e => by rw [(h.ownC c).1 e] at hc; exact nomatch hc
      refine ⟨upd own c .cache, c :: C, upd T t [], inv_move h t .idle [] rfl ?_ (fun _ _ _ _ => ⟨rfl, rfl, rfl⟩) ?_ (List.nodup_cons.2 ⟨hcC, h.nodupC⟩) ?_ rfl .nil ?_ ?_ ?_ ?_ ?_ ?_ hub ?_ h.live h.ok⟩
      · intro u a hu
        exact upd_iff hc _ (.thr u) (h1 := fun e => hu (Own.thr.inj e).symm) (a := a)
      · exact ⟨rfl, by show Chain s.next (s.next c) C; rw [← he]; exact h.cache⟩
      · intro a
        by_cases hac : a = c
        · subst hac; rw [upd_same]; exact ⟨fun _ => rfl, fun _ => List.mem_cons_self ..⟩
        · rw [upd_other _ _ hac, ← h.ownC a]
          exact ⟨fun e => (List.mem_cons.1 e).resolve_left hac, List.mem_cons_of_mem _⟩
      · intro a
        refine ⟨fun e => (nomatch e), fun e => ?_⟩
        by_cases hac : a = c
        · subst hac; rw [upd_same] at e; exact nomatch e
        · rw [upd_other _ _ hac] at e
          have := (h.ownT t a).2 e
          rw [hT] at this
          exact absurd (List.mem_singleton.1 this) hac
      · intro a z ha
        obtain ⟨h1, h2⟩ := h.used a z ha
        have hac : a ≠ c := fun e => by subst e; rw [hc] at h1; exact nomatch h1
        exact ⟨by rw [upd_other _ _ hac]; exact h1, h2⟩
      · intro a ha
        rw [upd_iff hc .cache .used] at ha; exact h.ownU a ha
      · intro a
        rw [upd_iff hc .cache .none]; exact h.maps a
      · intro a ha
        by_cases hac : a = c
        · subst hac; exact h.sizeT t a hc (by rw [hp]; rfl)
        · rw [upd_other _ _ hac] at ha; exact h.sizeC a ha
      · intro a ha _
        by_cases hac : a = c
        · subst hac; rw [upd_same] at ha; exact nomatch ha
        · rw [upd_other _ _ hac] at ha; exact h.sizeT t a ha (by rw [hp]; rfl)
      · intro a
        rw [upd_iff hc .cache .used]; exact h.inUse a
    · cases hs
      refine inv_header h t (.cas c) c ?_ (.inl hc) (fun a ha => upd_other _ _ ha) (fun a ha => rfl) rfl rfl rfl rfl hub hT
        (fun a ha _ => h.sizeT t a ha (by rw [hp]; rfl))
      funext i
      show s.pc i = _
      unfold upd
      split
      · subst_vars; exact hp
      · rfl
  · exact nomatch hs

theorem inv_step {s s' : Sys} {own : Nat → Own} {C : List Nat} {T : Nat → List Nat} {a : Act} (h : Inv s own C T) (hs : step s a = some s') :
    ∃ own C T, Inv s' own C T := by
  cases a with
  | alloc t sz =>
    simp only [step] at hs
    split at hs
    · rename_i hp
      cases hs
      have ht := h.thr t
      rw [hp] at ht
      exact inv_pc h t _ rfl rfl rfl rfl rfl rfl rfl h.ub ht (by rw [hp]; rfl)
    · exact nomatch hs
  | go t => exact inv_go h hs
  | fail t =>
    simp only [step] at hs
    split at hs
    · rename_i sz hp
      cases hs
      have ht := h.thr t
      rw [hp] at ht
      exact inv_pc h t _ rfl rfl rfl rfl rfl rfl rfl h.ub (chain_none ht) (by rw [hp]; rfl)
    · exact nomatch hs
  | spurious t =>
    simp only [step] at hs
    split at hs
    · rename_i c hp
      cases hs
      have ht := h.thr t
      rw [hp] at ht
      have hT : T t = [c] := ht
      have hc : own c = .thr t := (h.ownT t c).1 (by rw [hT]; exact List.mem_cons_self ..)
      refine inv_header h t (.cas c) c ?_ (.inl hc) (fun a ha => upd_other _ _ ha) (fun a ha => rfl) rfl rfl rfl rfl
        (inv_touch h (by rw [hc]; exact fun e => nomatch e)) hT (fun a ha _ => h.sizeT t a ha (by rw [hp]; rfl))
      funext i
      show s.pc i = _
      unfold upd
      split
      · subst_vars; exact hp
      · rfl
    · exact nomatch hs
  | scribble a n z =>
    simp only [step] at hs
    split at hs
    · rename_i hu
      cases hs
      obtain ⟨⟨b, y⟩, hb, he⟩ := List.any_eq_true.1 hu
      have he : b = a := by simpa using he
      subst he
      have hc := (h.used b y hb).1
      have hub := inv_touch h (c := b) (by rw [hc]; exact fun e => nomatch e)
      have hT : ∀ u, b ∉ T u := fun u hm => by rw [(h.ownT u b).1 hm] at hc; exact nomatch hc
      have hne : ∀ x, own x = .cache → x ≠ b := by rintro x hx rfl; rw [hx] at hc; exact nomatch hc
      refine ⟨own, C, T, ?_, h.nodupC, h.ownC, ?_, h.nodupT, h.ownT, h.used, h.ownU, h.maps, ?_, ?_, hub, h.inUse, h.live, h.ok⟩
      · exact chain_frame (fun x hx => upd_other _ _ (hne x ((h.ownC x).1 hx))) h.cache
      · intro u
        exact holds_frame (fun x hx => upd_other _ _ (fun e => hT u (by rw [← e]; exact hx))) (fun _ _ => rfl) (h.thr u)
      · intro x hx
        show s.maps x = some (upd s.size b z x)
        rw [upd_other _ _ (hne x hx)]; exact h.sizeC x hx
      · intro u x hx hr
        show s.maps x = some (upd s.size b z x)
        rw [upd_other _ _ (fun e => by subst e; rw [hx] at hc; exact nomatch hc)]; exact h.sizeT u x hx hr
    · exact nomatch hs
  | free t c z =>
    simp only [step] at hs
    split at hs
    · rename_i hpu
      obtain ⟨hp, hu⟩ := hpu
      cases hs
      obtain ⟨hc, hm⟩ := h.used c z hu
      have ht := h.thr t
      rw [hp] at ht
      have hT : T t = [] := ht
      have hown : ∀ a, own a ≠ .thr t := fun a e => by have := (h.ownT t a).2 e; rw [hT] at this; exact nomatch this
      refine ⟨upd own c (.thr t), C, upd T t [c], inv_move h t (.reset c z) [c] rfl ?_ (fun _ _ _ _ => ⟨rfl, rfl, rfl⟩) h.cache h.nodupC ?_ ⟨rfl, hm⟩ (by simp) ?_ ?_ ?_ ?_ ?_ ?_ h.ub ?_ h.live ?_⟩
      · intro u a hu
        exact upd_iff hc _ (.thr u) (h2 := fun e => hu (Own.thr.inj e).symm) (a := a)
      · intro a
        rw [h.ownC a]; exact (upd_iff hc (.thr t) .cache (a := a)).symm
      · intro a
        by_cases hac : a = c
        · subst hac; simp
        · rw [upd_other _ _ hac]; exact ⟨fun e => absurd (List.mem_singleton.1 e) hac, fun e => absurd e (hown a)⟩
      · intro a y ha
        obtain ⟨h1, h2⟩ := List.mem_filter.1 ha
        have hac : a ≠ c := by simpa using h2
        rw [upd_other _ _ hac]
        exact h.used a y h1
      · intro a ha
        have hac : a ≠ c := fun e => by subst e; rw [upd_same] at ha; exact nomatch ha
        rw [upd_other _ _ hac] at ha
        obtain ⟨y, hy⟩ := h.ownU a ha
        exact ⟨y, List.mem_filter.2 ⟨hy, by simpa using hac⟩⟩
      · intro a
        rw [upd_iff hc (.thr t) .none]; exact h.maps a
      · intro a ha
        rw [upd_iff hc (.thr t) .cache] at ha; exact h.sizeC a ha
      · intro a _ hr; exact nomatch hr
      · intro a
        show (if c = a then false else inUse a s.trace) = true ↔ _
        by_cases hac : a = c
        · subst hac; simp
        · rw [if_neg (fun e => hac e.symm), upd_other _ _ hac]; exact h.inUse a
      · exact ⟨(h.inUse c).2 hc, h.ok⟩
    · exact nomatch hs
  | mmap t c =>
    simp only [step] at hs
    split at hs
    · rename_i sz hp
      split at hs
      · rename_i hm
        cases hs
        have hc := (h.maps c).1 hm
        have ht := h.thr t
        rw [hp] at ht
        have hT : T t = [] := chain_none ht
        have hown : ∀ a, own a ≠ .thr t := fun a e => by have := (h.ownT t a).2 e; rw [hT] at this; exact nomatch this
        have hne : ∀ x, own x = .cache → x ≠ c := by rintro x hx rfl; rw [hx] at hc; exact nomatch hc
        refine ⟨upd own c .used, C, upd T t [], inv_move h t .idle [] rfl ?_ ?_ ?_ h.nodupC ?_ rfl .nil ?_ ?_ ?_ ?_ ?_ ?_ h.ub ?_ ?_ ?_⟩
        · intro u a hu
          exact upd_iff hc _ (.thr u) (a := a)
        · intro u a hu ha
          have hac : a ≠ c := fun e => by subst e; rw [hc] at ha; exact nomatch ha
          exact ⟨upd_other _ _ hac, upd_other _ _ hac, upd_other _ _ hac⟩
        · exact chain_frame (fun x hx => upd_other _ _ (hne x ((h.ownC x).1 hx))) h.cache
        · intro a
          rw [h.ownC a]; exact (upd_iff hc .used .cache (a := a)).symm
        · intro a
          refine ⟨fun e => (nomatch e), fun e => ?_⟩
          rw [upd_iff hc .used (.thr t)] at e
          exact absurd e (hown a)
        · intro a z ha
          rcases List.mem_cons.1 ha with e | ha
          · cases e; exact ⟨upd_same .., upd_same ..⟩
          · obtain ⟨h1, h2⟩ := h.used a z ha
            have hac : a ≠ c := fun e => by subst e; rw [hc] at h1; exact nomatch h1
            exact ⟨by rw [upd_other _ _ hac]; exact h1, by rw [← h2]; exact upd_other _ _ hac⟩
        · intro a ha
          by_cases hac : a = c
          · subst hac; exact ⟨_, List.mem_cons_self ..⟩
          · rw [upd_other _ _ hac] at ha
            obtain ⟨z, hz⟩ := h.ownU a ha
            exact ⟨z, List.mem_cons_of_mem _ hz⟩
        · intro a
          show upd s.maps c (some sz) a = none ↔ _
          by_cases hac : a = c
          · subst hac; rw [upd_same, upd_same]; exact ⟨fun e => (nomatch e), fun e => (nomatch e)⟩
          · rw [upd_other _ _ hac, upd_other _ _ hac]; exact h.maps a
        · intro a ha
          have hac : a ≠ c := fun e => by subst e; rw [upd_same] at ha; exact nomatch ha
          rw [upd_other _ _ hac] at ha
          show upd s.maps c (some sz) a = some (upd s.size c sz a)
          rw [upd_other _ _ hac, upd_other _ _ hac]; exact h.sizeC a ha
        · intro a ha _
          rw [upd_iff hc .used (.thr t)] at ha
          exact absurd ha (hown a)
        · intro a
          show (if c = a then true else inUse a s.trace) = true ↔ _
          by_cases hac : a = c
          · subst hac; simp
          · rw [if_neg (fun e => hac e.symm), upd_other _ _ hac]; exact h.inUse a
        · intro a
          show (if c = a then some sz else live a s.trace) = upd s.maps c (some sz) a
          by_cases hac : a = c
          · subst hac; simp
          · rw [if_neg (fun e => hac e.symm), upd_other _ _ hac]; exact h.live a
        · have hu : inUse c s.trace = false := by
            cases hu : inUse c s.trace with
            | false => rfl
            | true => rw [h.inUse c, hc] at hu; exact nomatch hu
          exact ⟨hu, if_pos rfl, rfl, hu, by rw [h.live c]; exact hm, h.ok⟩
      · exact nomatch hs
    · exact nomatch hs

theorem inv_init : Inv {} (fun _ => .none) [] (fun _ => []) :=
  ⟨rfl, .nil, fun _ => ⟨fun e => (nomatch e), fun e => (nomatch e)⟩, fun _ => rfl, fun _ => .nil, fun _ _ => ⟨fun e => (nomatch e), fun e => (nomatch e)⟩,
    fun _ _ e => (nomatch e), fun _ e => (nomatch e), fun _ => ⟨fun _ => rfl, fun _ => rfl⟩, fun _ e => (nomatch e), fun _ _ e => (nomatch e), rfl,
    fun _ => ⟨fun e => (nomatch e), fun e => (nomatch e)⟩, fun _ => rfl, trivial⟩

theorem inv {s : Sys} (h : Reachable s) : ∃ own C T, Inv s own C T := by
  induction h with
  | init => exact ⟨_, _, _, inv_init⟩
  | step a hr hs ih =>
    obtain ⟨own, C, T, h⟩ := ih
    exact inv_step h hs

end Verif.Stack
