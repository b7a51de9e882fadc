import Verif.Spec.ValueDrop
namespace Verif.ValueDrop

def Frame.ids : Frame → List Nat
  | .drop a _ => [a]
  | _ => []

def fvals (fs : List Frame) : List Val := fs.flatMap Frame.vals
def fids (fs : List Frame) : List Nat := fs.flatMap Frame.ids
def frmc (s : Sys) (v : Val) : Nat := (s.frames.flatMap fvals).count v
def heapc (s : Sys) (v : Val) : Nat := (s.heap.flatMap cellVals).count v
def idc (s : Sys) (a : Nat) : Nat := (s.frames.flatMap fids).count a
/-- References that are not in functions that are running. -/
def outs (s : Sys) (v : Val) : Nat := s.roots.count v + heapc s v

theorem refs_eq (s : Sys) (a : Nat) : refs s a = outs s (.ref a) + frmc s (.ref a) := by
  unfold refs vals outs frmc heapc
  rw [List.count_append, List.count_append]
  show _ + (List.count _ (s.frames.flatMap fvals) + _) = _
  omega

theorem count_set {α β : Type} [BEq β] (f : α → List β) (v : β) : ∀ {l : List α} {i : Nat} {y : α} (x : α), l[i]? = some y →
    ((l.set i x).flatMap f).count v + (f y).count v = (l.flatMap f).count v + (f x).count v
  | [], _, _, _, h => by cases h
  | z :: l, 0, y, x, h => by
    simp only [List.getElem?_cons_zero, Option.some.injEq] at h
    subst h
    simp only [List.set_cons_zero, List.flatMap_cons, List.count_append]; omega
  | z :: l, i + 1, y, x, h => by
    have := count_set f v (l := l) (i := i) x (by simpa using h)
    simp only [List.set_cons_succ, List.flatMap_cons, List.count_append]; omega

theorem frmc_set {s s' : Sys} {t : Nat} {old new : List Frame} (h : s.frames[t]? = some old) (hs : s'.frames = s.frames.set t new) (v : Val) :
    frmc s' v + (fvals old).count v = frmc s v + (fvals new).count v := by
  unfold frmc; rw [hs]; exact count_set fvals v new h

theorem idc_set {s s' : Sys} {t : Nat} {old new : List Frame} (h : s.frames[t]? = some old) (hs : s'.frames = s.frames.set t new) (v : Nat) :
    idc s' v + (fids old).count v = idc s v + (fids new).count v := by
  unfold idc; rw [hs]; exact count_set fids v new h

theorem heapc_set {s s' : Sys} {a : Nat} {old new : Option Cell} (h : s.heap[a]? = some old) (hs : s'.heap = s.heap.set a new) (v : Val) :
    heapc s' v + (cellVals old).count v = heapc s v + (cellVals new).count v := by
  unfold heapc; rw [hs]; exact count_set cellVals v new h

def Ok : Option (Option Cell) → Nat → Nat → Prop
  | some (some c), r, d => c.count = r ∧ if c.count = 0 then d = 1 ∧ c.elems = [] else d = 0
  | _, r, d => r = 0 ∧ d = 0

structure Inv (s0 s : Sys) : Prop where
  ok : ∀ a, Ok s.heap[a]? (refs s a) (idc s a)
  keep : ∀ (a : Nat) (c : Cell), s.heap[a]? = some (some c) → ∃ c0 : Cell, s0.heap[a]? = some (some c0) ∧ (∀ b, Val.ref b ∈ c.elems → Val.ref b ∈ c0.elems) ∧ (c.elems = c0.elems ∨ outs s (.ref a) = 0)

theorem inv_start {s : Sys} (h : Start s) : Inv s s := by
  refine ⟨fun a => ?_, fun a c hc => ⟨c, hc, fun _ h => h, .inl rfl⟩⟩
  have hd : idc s a = 0 := by
    unfold idc
    refine List.count_eq_zero.mpr fun hm => ?_
    obtain ⟨fs, hfs, hm⟩ := List.mem_flatMap.mp hm
    rw [h.idle fs hfs] at hm; cases hm
  cases hc : s.heap[a]? with
  | none => exact ⟨Classical.byContradiction fun hr => (by obtain ⟨c, e⟩ := h.valid a hr; rw [hc] at e; cases e), hd⟩
  | some o =>
    cases o with
    | none => exact ⟨Classical.byContradiction fun hr => (by obtain ⟨c, e⟩ := h.valid a hr; rw [hc] at e; cases e), hd⟩
    | some c =>
      obtain ⟨h1, h2⟩ := h.counts a c hc
      exact ⟨h1, by rw [if_neg (by omega)]; exact hd⟩

theorem Inv.cell {s0 s : Sys} (h : Inv s0 s) {a : Nat} (hr : refs s a ≠ 0) : ∃ c, s.heap[a]? = some (some c) ∧ c.count = refs s a ∧ idc s a = 0 := by
  have := h.ok a
  cases hc : s.heap[a]? with
  | none => rw [hc] at this; exact absurd this.1 hr
  | some o =>
    cases o with
    | none => rw [hc] at this; exact absurd this.1 hr
    | some c =>
      rw [hc] at this
      have h2 := this.2
      rw [if_neg (by have := this.1; omega)] at h2
      exact ⟨c, rfl, this.1, h2⟩

theorem Inv.dropping {s0 s : Sys} (h : Inv s0 s) {a : Nat} (hd : idc s a ≠ 0) : s.heap[a]? = some (some ⟨0, []⟩) ∧ refs s a = 0 ∧ idc s a = 1 := by
  have := h.ok a
  cases hc : s.heap[a]? with
  | none => rw [hc] at this; exact absurd this.2 hd
  | some o =>
    cases o with
    | none => rw [hc] at this; exact absurd this.2 hd
    | some c =>
      rw [hc] at this
      have h2 := this.2
      split at h2
      · rename_i h0
        refine ⟨?_, by have := this.1; omega, h2.1⟩
        cases c; simp only at h0 h2; rw [h0, h2.2]
      · exact absurd h2 hd

theorem frame_mem {s : Sys} {t : Nat} {fs : List Frame} (h : s.frames[t]? = some fs) {v : Val} (hv : v ∈ fvals fs) : frmc s v ≠ 0 := by
  unfold frmc
  have : 0 < (s.frames.flatMap fvals).count v := List.count_pos_iff.mpr (List.mem_flatMap.mpr ⟨fs, List.mem_iff_getElem?.mpr ⟨t, h⟩, hv⟩)
  omega

theorem frame_id {s : Sys} {t : Nat} {fs : List Frame} (h : s.frames[t]? = some fs) {a : Nat} (hv : a ∈ fids fs) : idc s a ≠ 0 := by
  unfold idc
  have : 0 < (s.frames.flatMap fids).count a := List.count_pos_iff.mpr (List.mem_flatMap.mpr ⟨fs, List.mem_iff_getElem?.mpr ⟨t, h⟩, hv⟩)
  omega

theorem count_eraseIdx {α : Type} [BEq α] [LawfulBEq α] (v : α) : ∀ {l : List α} {i : Nat} {x : α}, l[i]? = some x → (l.eraseIdx i).count v + [x].count v = l.count v
  | [], _, _, h => by cases h
  | y :: l, 0, x, h => by
    simp only [List.getElem?_cons_zero, Option.some.injEq] at h
    subst h
    rw [List.eraseIdx_cons_zero, ← List.count_append, List.count_append, Nat.add_comm, ← List.count_append]; rfl
  | y :: l, i + 1, x, h => by
    have := count_eraseIdx v (l := l) (i := i) (x := x) (by simpa using h)
    simp only [List.eraseIdx_cons_succ, List.count_cons (a := v) (b := y)]; omega

theorem next_vals (stack : List Val) (v : Val) : (next stack).vals.count v = stack.count v := by
  unfold next
  cases h : stack.getLast? with
  | none => rw [List.getLast?_eq_none_iff] at h; subst h; rfl
  | some x =>
    obtain ⟨l, rfl⟩ := List.getLast?_eq_some_iff.mp h
    simp only [Frame.vals, List.dropLast_concat, List.count_append, List.count_cons, List.count_nil]; omega

theorem next_ids (stack : List Val) : (next stack).ids = [] := by unfold next; split <;> rfl

theorem fvals_cons (f : Frame) (fs : List Frame) (v : Val) : (fvals (f :: fs)).count v = f.vals.count v + (fvals fs).count v := by unfold fvals; rw [List.flatMap_cons, List.count_append]
theorem fids_cons (f : Frame) (fs : List Frame) (a : Nat) : (fids (f :: fs)).count a = f.ids.count a + (fids fs).count a := by unfold fids; rw [List.flatMap_cons, List.count_append]

/-- Steps that change frames and variables only, and lose no value. -/
theorem inv_quiet {s0 s s' : Sys} (h : Inv s0 s) (hh : s'.heap = s.heap) (hr : ∀ a, refs s' a = refs s a) (hi : ∀ a, idc s' a = idc s a) (ho : ∀ v, outs s' v ≤ outs s v) : Inv s0 s' := by
  refine ⟨fun a => by rw [hh, hr, hi]; exact h.ok a, fun a c hc => ?_⟩
  rw [hh] at hc
  obtain ⟨c0, h1, h2, h3⟩ := h.keep a c hc
  exact ⟨c0, h1, h2, h3.imp_right fun e => by have := ho (.ref a); omega⟩

theorem outs_frames {s s' : Sys} (hh : s'.heap = s.heap) (hr : s'.roots = s.roots) (v : Val) : outs s' v = outs s v := by unfold outs heapc; rw [hh, hr]

/-- Steps that change what one thread is doing, and lose no value. -/
theorem inv_frames {s0 s : Sys} (h : Inv s0 s) {t : Nat} {old new : List Frame} (hf : s.frames[t]? = some old) (hv : ∀ a, (fvals new).count (.ref a) = (fvals old).count (.ref a))
    (hi : ∀ a, (fids new).count a = (fids old).count a) : Inv s0 { s with frames := s.frames.set t new } := by
  have h1 := fun v => frmc_set (s' := { s with frames := s.frames.set t new }) hf rfl v
  have h2 := fun v => idc_set (s' := { s with frames := s.frames.set t new }) hf rfl v
  refine inv_quiet h rfl (fun a => ?_) (fun a => ?_) (fun v => Nat.le_of_eq (outs_frames rfl rfl v))
  · rw [refs_eq, refs_eq]
    have h3 := h1 (.ref a)
    have h4 := hv a
    have h5 : outs { s with frames := s.frames.set t new } (.ref a) = outs s (.ref a) := outs_frames rfl rfl _
    omega
  · have h3 := h2 a
    have h4 := hi a
    omega

theorem getElem?_lt {α : Type} {l : List α} {i : Nat} {x : α} (h : l[i]? = some x) : i < l.length := (List.getElem?_eq_some_iff.mp h).1

/-- Steps that change one block. -/
theorem inv_cell {s0 s s' : Sys} (h : Inv s0 s) {a : Nat} {c : Cell} {x : Option Cell} (hc : s.heap[a]? = some (some c)) (hh : s'.heap = s.heap.set a x)
    (hr : ∀ b, b ≠ a → refs s' b = refs s b) (hi : ∀ b, b ≠ a → idc s' b = idc s b) (hok : Ok (some x) (refs s' a) (idc s' a)) (ho : ∀ b, b ≠ a → outs s' (.ref b) ≤ outs s (.ref b))
    (hel : ∀ c', x = some c' → (∀ b, Val.ref b ∈ c'.elems → Val.ref b ∈ c.elems) ∧ (c'.elems = c.elems ∧ (outs s (.ref a) = 0 → outs s' (.ref a) = 0) ∨ outs s' (.ref a) = 0)) : Inv s0 s' := by
  refine ⟨fun b => ?_, fun b c' hc' => ?_⟩
  · rw [hh]
    by_cases hb : b = a
    · subst hb; rw [List.getElem?_set_self (getElem?_lt hc)]; exact hok
    · rw [List.getElem?_set_ne (Ne.symm hb), hr b hb, hi b hb]; exact h.ok b
  · rw [hh] at hc'
    by_cases hb : b = a
    · subst hb
      rw [List.getElem?_set_self (getElem?_lt hc)] at hc'
      simp only [Option.some.injEq] at hc'
      obtain ⟨h1, h2⟩ := hel c' hc'
      obtain ⟨c0, h3, h4, h5⟩ := h.keep b c hc
      refine ⟨c0, h3, fun d hd => h4 d (h1 d hd), ?_⟩
      rcases h2 with ⟨e, h2⟩ | h2
      · rcases h5 with h5 | h5
        · exact .inl (e.trans h5)
        · exact .inr (h2 h5)
      · exact .inr h2
    · rw [List.getElem?_set_ne (Ne.symm hb)] at hc'
      obtain ⟨c0, h1, h2, h3⟩ := h.keep b c' hc'
      exact ⟨c0, h1, h2, h3.imp_right fun e => by have := ho b hb; omega⟩

theorem count_ref_single (a b : Nat) : [Val.ref a].count (.ref b) = if a = b then 1 else 0 := by
  rw [List.count_cons, List.count_nil]; simp

theorem unpack_inv {s0 s : Sys} (h : Inv s0 s) {t k : Nat} {this : Val} {stack : List Val} {fs : List Frame} (hf : s.frames[t]? = some (.loop this stack :: fs)) :
    ∃ s', unpack s t fs k this stack = .ok s' ∧ Inv s0 s' := by
  have quiet : Inv s0 { s with frames := s.frames.set t (.tail this stack :: fs) } := by
    refine inv_frames h hf (fun a => ?_) (fun a => ?_)
    · simp only [fvals_cons, Frame.vals]
    · simp only [fids_cons, Frame.ids]
  unfold unpack
  cases this with
  | leaf => exact ⟨_, rfl, quiet⟩
  | ref a =>
    have hm : frmc s (.ref a) ≠ 0 := frame_mem hf (by simp [fvals, Frame.vals])
    obtain ⟨c, hc, hcnt, hid⟩ := h.cell (a := a) (by rw [refs_eq]; omega)
    simp only [hc]
    rw [if_neg (by rw [refs_eq] at hcnt; omega)]
    split
    · rename_i h1
      refine ⟨_, rfl, ?_⟩
      have hv := fun v => frmc_set (s' := { s with heap := s.heap.set a (some { c with elems := List.replicate (min k c.elems.length) .leaf ++ c.elems.drop (min k c.elems.length) }), frames := s.frames.set t (.tail (.ref a) (stack ++ c.elems.take (min k c.elems.length)) :: fs) }) hf rfl v
      have hi := fun v => idc_set (s' := { s with heap := s.heap.set a (some { c with elems := List.replicate (min k c.elems.length) .leaf ++ c.elems.drop (min k c.elems.length) }), frames := s.frames.set t (.tail (.ref a) (stack ++ c.elems.take (min k c.elems.length)) :: fs) }) hf rfl v
      have hp := fun v => heapc_set (s' := { s with heap := s.heap.set a (some { c with elems := List.replicate (min k c.elems.length) .leaf ++ c.elems.drop (min k c.elems.length) }), frames := s.frames.set t (.tail (.ref a) (stack ++ c.elems.take (min k c.elems.length)) :: fs) }) hc rfl v
      generalize hs' : ({ s with heap := s.heap.set a (some { c with elems := List.replicate (min k c.elems.length) .leaf ++ c.elems.drop (min k c.elems.length) }), frames := s.frames.set t (.tail (.ref a) (stack ++ c.elems.take (min k c.elems.length)) :: fs) } : Sys) = s' at hv hi hp
      have hroots : s'.roots = s.roots := by subst hs'; rfl
      have hheap : s'.heap = s.heap.set a (some { c with elems := List.replicate (min k c.elems.length) .leaf ++ c.elems.drop (min k c.elems.length) }) := by subst hs'; rfl
      have hsplit : ∀ v, (c.elems.take (min k c.elems.length)).count v + (c.elems.drop (min k c.elems.length)).count v = c.elems.count v := fun v => by
        rw [← List.count_append, List.take_append_drop]
      have hrep : ∀ b, (List.replicate (min k c.elems.length) Val.leaf).count (.ref b) = 0 := fun b => by rw [List.count_replicate]; simp
      have hrefs : ∀ b, refs s' b = refs s b := by
        intro b
        have h1 := hv (.ref b); have h2 := hp (.ref b); have h3 := hsplit (.ref b); have h4 := hrep b
        rw [refs_eq, refs_eq]
        unfold outs
        rw [hroots]
        simp only [fvals_cons, Frame.vals, cellVals, List.count_cons, List.count_append] at h1 h2
        omega
      have hids : ∀ b, idc s' b = idc s b := by
        intro b
        have := hi b
        simp only [fids_cons, Frame.ids] at this; omega
      have houts : ∀ b, outs s' (.ref b) ≤ outs s (.ref b) := by
        intro b
        have h2 := hp (.ref b); have h3 := hsplit (.ref b); have h4 := hrep b
        unfold outs
        rw [hroots]
        simp only [cellVals, List.count_append] at h2
        omega
      refine inv_cell h hc hheap (fun b _ => hrefs b) (fun b _ => hids b) ?_ (fun b _ => houts b) ?_
      · refine ⟨by rw [hrefs]; exact hcnt, ?_⟩
        simp only
        rw [if_neg (by omega), hids]; exact hid
      · intro c' e
        simp only [Option.some.injEq] at e
        subst e
        refine ⟨fun b hb => ?_, .inr ?_⟩
        · simp only [List.mem_append, List.mem_replicate] at hb
          rcases hb with ⟨_, hb⟩ | hb
          · cases hb
          · exact List.mem_of_mem_drop hb
        · have := houts a
          rw [refs_eq] at hcnt
          omega
    · exact ⟨_, rfl, quiet⟩

theorem release_inv {s0 s : Sys} (h : Inv s0 s) {t : Nat} {this : Val} {stack : List Val} {fs : List Frame} (hf : s.frames[t]? = some (.tail this stack :: fs)) :
    ∃ s', release s t (next stack :: fs) this = .ok s' ∧ Inv s0 s' := by
  unfold release
  cases this with
  | leaf =>
    refine ⟨_, rfl, ?_⟩
    refine inv_frames h hf (fun a => ?_) (fun a => ?_)
    · simp only [fvals_cons, next_vals]; simp [Frame.vals, List.count_cons]
    · simp only [fids_cons, next_ids]; simp only [Frame.ids]
  | ref a =>
    have hm : frmc s (.ref a) ≠ 0 := frame_mem hf (by simp [fvals, Frame.vals])
    obtain ⟨c, hc, hcnt, hid⟩ := h.cell (a := a) (by rw [refs_eq]; omega)
    simp only [hc]
    rw [if_neg (by rw [refs_eq] at hcnt; omega)]
    split
    · rename_i h1
      refine ⟨_, rfl, ?_⟩
      have hv := fun v => frmc_set (s' := { s with heap := s.heap.set a (some ⟨0, []⟩), frames := s.frames.set t (.drop a c.elems :: next stack :: fs) }) hf rfl v
      have hi := fun v => idc_set (s' := { s with heap := s.heap.set a (some ⟨0, []⟩), frames := s.frames.set t (.drop a c.elems :: next stack :: fs) }) hf rfl v
      have hp := fun v => heapc_set (s' := { s with heap := s.heap.set a (some ⟨0, []⟩), frames := s.frames.set t (.drop a c.elems :: next stack :: fs) }) hc rfl v
      generalize hs' : ({ s with heap := s.heap.set a (some ⟨0, []⟩), frames := s.frames.set t (.drop a c.elems :: next stack :: fs) } : Sys) = s' at hv hi hp
      have hroots : s'.roots = s.roots := by subst hs'; rfl
      have hheap : s'.heap = s.heap.set a (some ⟨0, []⟩) := by subst hs'; rfl
      have hrefs : ∀ b, refs s' b + (if a = b then 1 else 0) = refs s b := by
        intro b
        have h1 := hv (.ref b); have h2 := hp (.ref b)
        rw [refs_eq, refs_eq]
        unfold outs
        rw [hroots]
        simp only [fvals_cons, next_vals] at h1
        simp only [Frame.vals, cellVals, List.count_cons, List.count_nil, beq_iff_eq, Val.ref.injEq] at h1 h2
        omega
      have hids : ∀ b, idc s' b = idc s b + (if a = b then 1 else 0) := by
        intro b
        have := hi b
        simp only [fids_cons, next_ids] at this
        simp only [Frame.ids, List.count_cons, List.count_nil, beq_iff_eq] at this
        omega
      have houts : ∀ b, outs s' (.ref b) ≤ outs s (.ref b) := by
        intro b
        have h2 := hp (.ref b)
        unfold outs
        rw [hroots]
        simp only [cellVals, List.count_nil] at h2
        omega
      refine inv_cell h hc hheap (fun b hb => ?_) (fun b hb => ?_) ?_ (fun b _ => houts b) ?_
      · have := hrefs b; rw [if_neg (Ne.symm hb)] at this; omega
      · have := hids b; rw [if_neg (Ne.symm hb)] at this; omega
      · have h2 := hrefs a; have h3 := hids a
        rw [if_pos rfl] at h2 h3
        refine ⟨show 0 = refs s' a by omega, ?_⟩
        show if 0 = 0 then _ else _
        rw [if_pos rfl]
        exact ⟨by omega, rfl⟩
      · intro c' e
        simp only [Option.some.injEq] at e
        subst e
        refine ⟨fun b hb => (by cases hb), .inr ?_⟩
        have := houts a
        rw [refs_eq] at hcnt
        omega
    · rename_i h1
      refine ⟨_, rfl, ?_⟩
      have hv := fun v => frmc_set (s' := { s with heap := s.heap.set a (some { c with count := c.count - 1 }), frames := s.frames.set t (next stack :: fs) }) hf rfl v
      have hi := fun v => idc_set (s' := { s with heap := s.heap.set a (some { c with count := c.count - 1 }), frames := s.frames.set t (next stack :: fs) }) hf rfl v
      have hp := fun v => heapc_set (s' := { s with heap := s.heap.set a (some { c with count := c.count - 1 }), frames := s.frames.set t (next stack :: fs) }) hc rfl v
      generalize hs' : ({ s with heap := s.heap.set a (some { c with count := c.count - 1 }), frames := s.frames.set t (next stack :: fs) } : Sys) = s' at hv hi hp
      have hroots : s'.roots = s.roots := by subst hs'; rfl
      have hheap : s'.heap = s.heap.set a (some { c with count := c.count - 1 }) := by subst hs'; rfl
      have houts : ∀ b, outs s' (.ref b) = outs s (.ref b) := by
        intro b
        have h2 := hp (.ref b)
        unfold outs
        rw [hroots]
        simp only [cellVals] at h2
        omega
      have hrefs : ∀ b, refs s' b + (if a = b then 1 else 0) = refs s b := by
        intro b
        have h1 := hv (.ref b)
        rw [refs_eq, refs_eq, houts]
        simp only [fvals_cons, next_vals] at h1
        simp only [Frame.vals, List.count_cons, beq_iff_eq, Val.ref.injEq] at h1
        omega
      have hids : ∀ b, idc s' b = idc s b := by
        intro b
        have := hi b
        simp only [fids_cons, next_ids] at this; simp only [Frame.ids] at this
        omega
      refine inv_cell h hc hheap (fun b hb => ?_) (fun b hb => hids b) ?_ (fun b _ => Nat.le_of_eq (houts b)) ?_
      · have := hrefs b; rw [if_neg (Ne.symm hb)] at this; omega
      · have h2 := hrefs a
        rw [if_pos rfl] at h2
        refine ⟨by simp only; omega, ?_⟩
        simp only
        rw [if_neg (by rw [refs_eq] at hcnt; omega), hids]; exact hid
      · intro c' e
        simp only [Option.some.injEq] at e
        subst e
        exact ⟨fun b hb => hb, .inl ⟨rfl, fun e => by rw [houts]; exact e⟩⟩

/-- No step is undefined, and the invariant is kept. -/
theorem step_inv {s0 s : Sys} (h : Inv s0 s) (a : Act) : step s a = .no ∨ ∃ s', step s a = .ok s' ∧ Inv s0 s' := by
  cases a with
  | begin t i =>
    simp only [step]
    cases hf : s.frames[t]? with
    | none => exact .inl rfl
    | some fs =>
      cases fs with
      | cons f fs => exact .inl rfl
      | nil =>
        cases hv : s.roots[i]? with
        | none => exact .inl rfl
        | some v =>
          refine .inr ⟨_, rfl, ?_⟩
          have h1 := fun w => frmc_set (s' := { s with roots := s.roots.eraseIdx i, frames := s.frames.set t [.loop v []] }) hf rfl w
          have h2 := fun w => idc_set (s' := { s with roots := s.roots.eraseIdx i, frames := s.frames.set t [.loop v []] }) hf rfl w
          have h3 := fun w => count_eraseIdx w hv
          refine inv_quiet h rfl (fun a => ?_) (fun a => ?_) (fun w => ?_)
          · have h1 := h1 (.ref a); have h3 := h3 (.ref a)
            rw [refs_eq, refs_eq]
            unfold outs heapc
            simp only [fvals, List.flatMap_cons, List.flatMap_nil, Frame.vals, List.append_nil, List.count_nil] at h1 h3 ⊢
            omega
          · have := h2 a
            simp only [fids, List.flatMap_cons, List.flatMap_nil, Frame.ids, List.append_nil, List.count_nil] at this ⊢
            omega
          · have h3 := h3 w
            unfold outs heapc
            simp only
            omega
  | copy i =>
    simp only [step]
    cases hv : s.roots[i]? with
    | none => exact .inl rfl
    | some v =>
      cases v with
      | leaf =>
        refine .inr ⟨_, rfl, ⟨fun a => ?_, fun a c hc => ?_⟩⟩
        · have : refs { s with roots := .leaf :: s.roots } a = refs s a := by unfold refs vals; simp [List.count_cons]
          rw [this]; exact h.ok a
        · obtain ⟨c0, h1, h2, h3⟩ := h.keep a c hc
          exact ⟨c0, h1, h2, h3.imp_right fun e => by unfold outs heapc at *; simpa [List.count_cons] using e⟩
      | ref a =>
        have hm : 0 < s.roots.count (.ref a) := List.count_pos_iff.mpr (List.mem_iff_getElem?.mpr ⟨i, hv⟩)
        have ho : outs s (.ref a) ≠ 0 := by unfold outs; omega
        obtain ⟨c, hc, hcnt, hid⟩ := h.cell (a := a) (by rw [refs_eq]; omega)
        simp only [hc]
        rw [if_neg (by rw [refs_eq] at hcnt; omega)]
        refine .inr ⟨_, rfl, ?_⟩
        have hp := fun v => heapc_set (s' := { s with roots := .ref a :: s.roots, heap := s.heap.set a (some { c with count := c.count + 1 }) }) hc rfl v
        generalize hs' : ({ s with roots := .ref a :: s.roots, heap := s.heap.set a (some { c with count := c.count + 1 }) } : Sys) = s' at hp
        have hroots : s'.roots = .ref a :: s.roots := by subst hs'; rfl
        have hheap : s'.heap = s.heap.set a (some { c with count := c.count + 1 }) := by subst hs'; rfl
        have hfr : ∀ v, frmc s' v = frmc s v := by subst hs'; exact fun _ => rfl
        have hids : ∀ v, idc s' v = idc s v := by subst hs'; exact fun _ => rfl
        have houts : ∀ b, outs s' (.ref b) = outs s (.ref b) + (if a = b then 1 else 0) := by
          intro b
          have h2 := hp (.ref b)
          unfold outs
          rw [hroots]
          simp only [cellVals, List.count_cons, beq_iff_eq, Val.ref.injEq] at h2 ⊢
          omega
        have hrefs : ∀ b, refs s' b = refs s b + (if a = b then 1 else 0) := by
          intro b; rw [refs_eq, refs_eq, houts, hfr]; omega
        refine inv_cell h hc hheap (fun b hb => ?_) (fun b _ => hids b) ?_ (fun b hb => ?_) ?_
        · rw [hrefs, if_neg (Ne.symm hb)]; rfl
        · refine ⟨?_, ?_⟩
          · simp only; rw [hrefs, if_pos rfl]; omega
          · simp only; rw [if_neg (by omega), hids]; exact hid
        · rw [houts, if_neg (Ne.symm hb)]; exact Nat.le_refl _
        · intro c' e
          simp only [Option.some.injEq] at e
          subst e
          exact ⟨fun b hb => hb, .inl ⟨rfl, fun e => absurd e ho⟩⟩
  | go t k =>
    simp only [step, go]
    cases hf : s.frames[t]? with
    | none => exact .inl rfl
    | some fs =>
      cases fs with
      | nil => exact .inl rfl
      | cons f fs =>
        refine .inr ?_
        cases f with
        | loop this stack => exact unpack_inv h hf
        | tail this stack => exact release_inv h hf
        | fin =>
          refine ⟨_, rfl, ?_⟩
          refine inv_frames h hf (fun a => ?_) (fun a => ?_)
          · simp only [fvals_cons, Frame.vals, List.count_nil]; omega
          · simp only [fids_cons, Frame.ids, List.count_nil]; omega
        | drop a rest =>
          cases rest with
          | nil =>
            obtain ⟨hc, hr, hid⟩ := h.dropping (a := a) (frame_id hf (by simp [fids, Frame.ids]))
            simp only [hc]
            refine ⟨_, rfl, ?_⟩
            have hv := fun v => frmc_set (s' := { s with heap := s.heap.set a none, frames := s.frames.set t fs }) hf rfl v
            have hi := fun v => idc_set (s' := { s with heap := s.heap.set a none, frames := s.frames.set t fs }) hf rfl v
            have hp := fun v => heapc_set (s' := { s with heap := s.heap.set a none, frames := s.frames.set t fs }) hc rfl v
            generalize hs' : ({ s with heap := s.heap.set a none, frames := s.frames.set t fs } : Sys) = s' at hv hi hp
            have hroots : s'.roots = s.roots := by subst hs'; rfl
            have hheap : s'.heap = s.heap.set a none := by subst hs'; rfl
            have houts : ∀ b, outs s' (.ref b) = outs s (.ref b) := by
              intro b
              have h2 := hp (.ref b)
              unfold outs
              rw [hroots]
              simp only [cellVals, List.count_nil] at h2
              omega
            have hrefs : ∀ b, refs s' b = refs s b := by
              intro b
              have h1 := hv (.ref b)
              rw [refs_eq, refs_eq, houts]
              simp only [fvals_cons, Frame.vals, List.count_nil] at h1
              omega
            have hids : ∀ b, idc s' b + (if a = b then 1 else 0) = idc s b := by
              intro b
              have := hi b
              simp only [fids_cons, Frame.ids, List.count_cons, List.count_nil, beq_iff_eq] at this
              omega
            refine inv_cell h hc hheap (fun b _ => hrefs b) (fun b hb => ?_) ?_ (fun b _ => Nat.le_of_eq (houts b)) (fun c' e => by cases e)
            · have := hids b; rw [if_neg (Ne.symm hb)] at this; omega
            · have := hids a; rw [if_pos rfl] at this
              exact ⟨by rw [hrefs]; exact hr, by omega⟩
          | cons v vs =>
            refine ⟨_, rfl, ?_⟩
            refine inv_frames h hf (fun b => ?_) (fun b => ?_)
            · simp only [fvals_cons, Frame.vals, List.count_cons, List.count_nil]; omega
            · simp only [fids_cons, Frame.ids, List.count_nil]; omega

theorem inv {s0 s : Sys} (h0 : Start s0) (h : Reachable s0 s) : Inv s0 s := by
  induction h with
  | init => exact inv_start h0
  | @step s s' a _ hs ih =>
    rcases step_inv ih a with e | ⟨s1, e, h1⟩
    · rw [e] at hs; cases hs
    · rw [e] at hs; cases hs; exact h1

/-! ## Termination -/

def wt : Val → Nat
  | .leaf => 0
  | .ref _ => 1

def wts (l : List Val) : Nat := (l.map wt).sum

def Frame.refW : Frame → Nat
  | .loop this stack => 2 * wt this + 2 * wts stack
  | .tail this stack => wt this + 2 * wts stack
  | .fin => 0
  | .drop _ rest => 2 * wts rest

def Frame.workW : Frame → Nat
  | .loop _ stack => 3 + 4 * stack.length
  | .tail _ stack => 2 + 4 * stack.length
  | .fin => 1
  | .drop _ rest => 1 + 4 * rest.length

def cellW (o : Option Cell) : Nat := wts (cellVals o)
theorem cellW_some (c : Cell) : cellW (some c) = wts c.elems := rfl
theorem cellW_none : cellW none = 0 := rfl

def fsum (f : Frame → Nat) (fs : List Frame) : Nat := (fs.map f).sum
def refW (s : Sys) : Nat := (s.frames.map (fsum Frame.refW)).sum + 2 * (s.heap.map cellW).sum
def workW (s : Sys) : Nat := (s.frames.map (fsum Frame.workW)).sum

theorem sum_set {α : Type} (f : α → Nat) : ∀ {l : List α} {i : Nat} {y : α} (x : α), l[i]? = some y → ((l.set i x).map f).sum + f y = (l.map f).sum + f x
  | [], _, _, _, h => by cases h
  | z :: l, 0, y, x, h => by
    simp only [List.getElem?_cons_zero, Option.some.injEq] at h
    subst h
    simp only [List.set_cons_zero, List.map_cons, List.sum_cons]; omega
  | z :: l, i + 1, y, x, h => by
    have := sum_set f (l := l) (i := i) x (by simpa using h)
    simp only [List.set_cons_succ, List.map_cons, List.sum_cons]; omega

theorem wts_append (a b : List Val) : wts (a ++ b) = wts a + wts b := by simp [wts]
theorem fsum_cons (f : Frame → Nat) (g : Frame) (fs : List Frame) : fsum f (g :: fs) = f g + fsum f fs := by simp [fsum]
theorem wts_leaves (n : Nat) : wts (List.replicate n .leaf) = 0 := by simp [wts, wt]

theorem next_refW (stack : List Val) : (next stack).refW = 2 * wts stack := by
  unfold next
  cases h : stack.getLast? with
  | none => rw [List.getLast?_eq_none_iff] at h; subst h; rfl
  | some x =>
    obtain ⟨l, rfl⟩ := List.getLast?_eq_some_iff.mp h
    simp [Frame.refW, wts]; omega

theorem next_workW (stack : List Val) : (next stack).workW < 2 + 4 * stack.length := by
  unfold next
  cases h : stack.getLast? with
  | none => simp only [Frame.workW]; omega
  | some x =>
    obtain ⟨l, rfl⟩ := List.getLast?_eq_some_iff.mp h
    simp [Frame.workW]; omega

theorem go_less {s s' : Sys} {t k : Nat} (h : go s t k = .ok s') : refW s' < refW s ∨ refW s' = refW s ∧ workW s' < workW s := by
  unfold go at h
  split at h
  · rename_i this stack fs hf
    unfold unpack at h
    have hr := fun x => sum_set (fsum Frame.refW) (l := s.frames) x hf
    have hw := fun x => sum_set (fsum Frame.workW) (l := s.frames) x hf
    split at h
    · cases h
      have h1 := hr (.tail .leaf stack :: fs); have h2 := hw (.tail .leaf stack :: fs)
      simp only [fsum_cons, Frame.refW, Frame.workW, wt] at h1 h2
      unfold refW workW
      exact .inr ⟨by simp only; omega, by simp only; omega⟩
    · rename_i a
      split at h
      · rename_i c hc
        split at h
        · cases h
        · split at h
          · cases h
            have h1 := hr (.tail (.ref a) (stack ++ c.elems.take (min k c.elems.length)) :: fs)
            have h2 := sum_set cellW (l := s.heap) (some { c with elems := List.replicate (min k c.elems.length) .leaf ++ c.elems.drop (min k c.elems.length) }) hc
            have h3 : wts (c.elems.take (min k c.elems.length)) + wts (c.elems.drop (min k c.elems.length)) = wts c.elems := by rw [← wts_append, List.take_append_drop]
            simp only [fsum_cons, Frame.refW, wt, cellW_some, wts_append, wts_leaves] at h1 h2
            unfold refW
            left; simp only; omega
          · cases h
            have h1 := hr (.tail (.ref a) stack :: fs)
            simp only [fsum_cons, Frame.refW, wt] at h1
            unfold refW
            left; simp only; omega
      · cases h
  · rename_i this stack fs hf
    unfold release at h
    have hr := fun x => sum_set (fsum Frame.refW) (l := s.frames) x hf
    have hw := fun x => sum_set (fsum Frame.workW) (l := s.frames) x hf
    have hn := next_refW stack
    split at h
    · cases h
      have h1 := hr (next stack :: fs); have h2 := hw (next stack :: fs)
      have h3 := next_workW stack
      simp only [fsum_cons, hn] at h1 h2
      simp only [Frame.refW, wt] at h1
      have h4 : (Frame.tail .leaf stack).workW = 2 + 4 * stack.length := rfl
      unfold refW workW
      exact .inr ⟨by simp only; omega, by simp only; omega⟩
    · rename_i a
      split at h
      · rename_i c hc
        split at h
        · cases h
        · split at h
          · cases h
            have h1 := hr (.drop a c.elems :: next stack :: fs)
            have h2 := sum_set cellW (l := s.heap) (some ⟨0, []⟩) hc
            simp only [fsum_cons, hn] at h1
            simp only [Frame.refW, wt, cellW_some] at h1 h2
            have h3 : wts [] = 0 := rfl
            unfold refW
            left; simp only; omega
          · cases h
            have h1 := hr (next stack :: fs)
            have h2 := sum_set cellW (l := s.heap) (some { c with count := c.count - 1 }) hc
            simp only [fsum_cons, hn] at h1
            simp only [Frame.refW, wt, cellW_some] at h1 h2
            unfold refW
            left; simp only; omega
      · cases h
  · rename_i fs hf
    cases h
    have h1 := sum_set (fsum Frame.refW) (l := s.frames) fs hf
    have h2 := sum_set (fsum Frame.workW) (l := s.frames) fs hf
    simp only [fsum_cons, Frame.refW, Frame.workW] at h1 h2
    unfold refW workW
    exact .inr ⟨by simp only; omega, by simp only; omega⟩
  · rename_i a v vs fs hf
    cases h
    have h1 := sum_set (fsum Frame.refW) (l := s.frames) (.loop v [] :: .drop a vs :: fs) hf
    have h2 := sum_set (fsum Frame.workW) (l := s.frames) (.loop v [] :: .drop a vs :: fs) hf
    have h3 : wts (v :: vs) = wt v + wts vs := by simp [wts]
    have h4 : wts [] = 0 := rfl
    simp only [fsum_cons, Frame.refW, Frame.workW, List.length_cons, List.length_nil] at h1 h2
    unfold refW workW
    exact .inr ⟨by simp only; omega, by simp only; omega⟩
  · rename_i a fs hf
    split at h
    · rename_i hc
      cases h
      have h1 := sum_set (fsum Frame.refW) (l := s.frames) fs hf
      have h2 := sum_set (fsum Frame.workW) (l := s.frames) fs hf
      have h3 := sum_set cellW (l := s.heap) none hc
      have h4 : wts [] = 0 := rfl
      simp only [fsum_cons, Frame.refW, Frame.workW, List.length_nil, cellW_some, cellW_none] at h1 h2 h3
      unfold refW workW
      exact .inr ⟨by simp only; omega, by simp only; omega⟩
    · cases h
  · cases h

theorem no_endless : ∀ (r w : Nat) (f : Nat → Sys), refW (f 0) = r → workW (f 0) = w → ¬ ∀ n, ∃ t k, go (f n) t k = .ok (f (n + 1)) := by
  intro r
  induction r using Nat.strongRecOn with
  | ind r ihr =>
    intro w
    induction w using Nat.strongRecOn with
    | ind w ihw =>
      intro f hr hw h
      obtain ⟨t, k, h0⟩ := h 0
      have hs : ∀ n, ∃ t k, go (f (n + 1)) t k = .ok (f (n + 1 + 1)) := fun n => h (n + 1)
      rcases go_less h0 with h1 | ⟨h1, h2⟩
      · exact ihr _ (hr ▸ h1) _ (fun n => f (n + 1)) rfl rfl hs
      · exact ihw _ (hw ▸ h2) (fun n => f (n + 1)) (h1.trans hr) rfl hs

/-! ## Depth -/

def Leaves (l : List Val) : Prop := ∀ v ∈ l, v = .leaf

inductive Shape (s : Sys) : List Frame → Prop
  | idle : Shape s []
  | loop (v : Val) (st : List Val) : Shape s [.loop v st]
  | fin : Shape s [.fin]
  | tail (v : Val) (st : List Val) : (∀ (a : Nat) (c : Cell), v = .ref a → s.heap[a]? = some (some c) → c.count = 1 → Leaves c.elems) → Shape s [.tail v st]
  | drop (a : Nat) (vs st : List Val) : Leaves vs → Shape s [.drop a vs, next st]
  | inner (g : Frame) (a : Nat) (vs st : List Val) : Leaves vs → (g = .loop .leaf [] ∨ g = .tail .leaf [] ∨ g = .fin) → Shape s [g, .drop a vs, next st]

theorem next_shape (s : Sys) (st : List Val) : Shape s [next st] := by
  unfold next
  split
  · exact .loop _ _
  · exact .fin

theorem depth_next (st : List Val) : depth [next st] = 1 := by unfold next; split <;> rfl

theorem shape_depth {s : Sys} {fs : List Frame} (h : Shape s fs) : depth fs ≤ 2 := by
  cases h with
  | idle => exact Nat.zero_le _
  | loop => exact Nat.le_succ _
  | fin => exact Nat.le_succ _
  | tail => exact Nat.le_succ _
  | drop a vs st => show depth [next st] ≤ 2; rw [depth_next]; omega
  | inner g a vs st hl hg => rcases hg with rfl | rfl | rfl <;> (show depth [next st] + 1 ≤ 2; rw [depth_next]; omega)

/-- One thread destroys values, and there is memory for `m` elements. -/
def Alone (t m : Nat) : Act → Prop
  | .begin t' _ => t' = t
  | .copy _ => True
  | .go t' k => t' = t ∧ m ≤ k

structure Flat (t m : Nat) (s : Sys) : Prop where
  small : ∀ (a : Nat) (c : Cell), s.heap[a]? = some (some c) → c.elems.length ≤ m
  shape : ∀ fs, s.frames[t]? = some fs → Shape s fs

theorem shape_heap {s s' : Sys} {fs : List Frame} (h : Shape s fs) (hc : ∀ (a : Nat) (c' : Cell), s'.heap[a]? = some (some c') → c'.count = 1 → ∃ c, s.heap[a]? = some (some c) ∧ c.count = 1 ∧ (Leaves c.elems → Leaves c'.elems)) :
    Shape s' fs := by
  cases h with
  | idle => exact .idle
  | loop v st => exact .loop v st
  | fin => exact .fin
  | tail v st h =>
    refine .tail v st fun a c' hv hc' h1 => ?_
    obtain ⟨c, h2, h3, h4⟩ := hc a c' hc' h1
    exact h4 (h a c hv h2 h3)
  | drop a vs st h => exact .drop a vs st h
  | inner g a vs st h hg => exact .inner g a vs st h hg

theorem set_lookup {α : Type} {l : List α} {i j : Nat} {x y : α} (h : (l.set i x)[j]? = some y) : i = j ∧ y = x ∨ i ≠ j ∧ l[j]? = some y := by
  rw [List.getElem?_set] at h
  split at h
  · rename_i e
    split at h
    · cases h; exact .inl ⟨e, rfl⟩
    · cases h
  · rename_i e; exact .inr ⟨e, h⟩

theorem set_frame {s s' : Sys} {t : Nat} {g fs : List Frame} (hs : s'.frames = s.frames.set t g) (h : s'.frames[t]? = some fs) : fs = g := by
  rw [hs, List.getElem?_set] at h
  rw [if_pos rfl] at h
  split at h <;> cases h; rfl

theorem flat_go {t m k : Nat} {s s' : Sys} (h : Flat t m s) (hk : m ≤ k) (hs : go s t k = .ok s') : Flat t m s' := by
  unfold go at hs
  split at hs
  · rename_i this stack fs hf
    have hsh := h.shape _ hf
    unfold unpack at hs
    split at hs
    · cases hs
      refine ⟨h.small, fun gs hg => ?_⟩
      rw [set_frame rfl hg]
      cases hsh with
      | loop => exact .tail _ _ fun a c e => by cases e
      | inner _ a vs st hl hx =>
        rcases hx with hx | hx | hx <;> cases hx
        exact .inner _ a vs st hl (.inr (.inl rfl))
    · rename_i a
      split at hs
      · rename_i c hc
        split at hs
        · cases hs
        · split at hs
          · cases hs
            have hlen := h.small a c hc
            have hmin : min k c.elems.length = c.elems.length := by omega
            rw [hmin]
            simp only [List.drop_length, List.append_nil, List.take_length]
            refine ⟨fun b c' hb => ?_, fun gs hg => ?_⟩
            · rcases set_lookup hb with ⟨rfl, e⟩ | ⟨-, hb⟩
              · cases e; simpa using hlen
              · exact h.small b c' hb
            · rw [set_frame rfl hg]
              cases hsh with
              | loop =>
                refine .tail _ _ fun b c' e hb h1 => ?_
                cases e
                rcases set_lookup hb with ⟨-, e⟩ | hb
                · cases e; exact fun v hv => (List.mem_replicate.mp hv).2
                · exact absurd rfl hb.1
              | inner _ a vs st hl hx => rcases hx with hx | hx | hx <;> cases hx
          · cases hs
            rename_i hc1
            refine ⟨h.small, fun gs hg => ?_⟩
            rw [set_frame rfl hg]
            cases hsh with
            | loop =>
              refine .tail _ _ fun b c' e hb h1 => ?_
              cases e
              simp only at hb
              rw [hc] at hb
              cases hb
              exact absurd h1 hc1
            | inner _ a vs st hl hx => rcases hx with hx | hx | hx <;> cases hx
      · cases hs
  · rename_i this stack fs hf
    have hsh := h.shape _ hf
    unfold release at hs
    split at hs
    · cases hs
      refine ⟨h.small, fun gs hg => ?_⟩
      rw [set_frame rfl hg]
      cases hsh with
      | tail => exact next_shape _ _
      | inner _ a vs st hl hx =>
        rcases hx with hx | hx | hx <;> cases hx
        exact .inner _ a vs st hl (.inr (.inr rfl))
    · rename_i a
      split at hs
      · rename_i c hc
        split at hs
        · cases hs
        · split at hs
          · rename_i hc1
            cases hs
            refine ⟨fun b c' hb => ?_, fun gs hg => ?_⟩
            · rcases set_lookup hb with ⟨rfl, e⟩ | ⟨-, hb⟩
              · cases e; exact Nat.zero_le _
              · exact h.small b c' hb
            · rw [set_frame rfl hg]
              cases hsh with
              | tail _ _ ht => exact .drop _ _ _ (ht a c rfl hc hc1)
              | inner _ a vs st hl hx => rcases hx with hx | hx | hx <;> cases hx
          · cases hs
            refine ⟨fun b c' hb => ?_, fun gs hg => ?_⟩
            · rcases set_lookup hb with ⟨rfl, e⟩ | ⟨-, hb⟩
              · cases e; exact h.small _ c hc
              · exact h.small b c' hb
            · rw [set_frame rfl hg]
              cases hsh with
              | tail _ _ ht => exact next_shape _ _
              | inner _ a vs st hl hx => rcases hx with hx | hx | hx <;> cases hx
      · cases hs
  · rename_i fs hf
    have hsh := h.shape _ hf
    cases hs
    refine ⟨h.small, fun gs hg => ?_⟩
    rw [set_frame rfl hg]
    cases hsh with
    | fin => exact .idle
    | inner _ a vs st hl hx => exact .drop a vs st hl
  · rename_i a v vs fs hf
    have hsh := h.shape _ hf
    cases hs
    refine ⟨h.small, fun gs hg => ?_⟩
    rw [set_frame rfl hg]
    cases hsh with
    | drop _ _ st hl =>
      rw [hl v (.head _)]
      exact .inner _ a vs st (fun x hx => hl x (.tail _ hx)) (.inl rfl)
    | inner _ _ _ _ _ hx => rcases hx with hx | hx | hx <;> cases hx
  · rename_i a fs hf
    have hsh := h.shape _ hf
    split at hs
    · rename_i hc
      cases hs
      refine ⟨fun b c' hb => ?_, fun gs hg => ?_⟩
      · rcases set_lookup hb with ⟨rfl, e⟩ | ⟨-, hb⟩
        · cases e
        · exact h.small b c' hb
      · rw [set_frame rfl hg]
        cases hsh with
        | drop _ _ st hl => exact next_shape _ _
        | inner _ _ _ _ _ hx => rcases hx with hx | hx | hx <;> cases hx
    · cases hs
  · cases hs

theorem flat_step {t m : Nat} {s s' : Sys} (h : Flat t m s) {a : Act} (ha : Alone t m a) (hs : step s a = .ok s') : Flat t m s' := by
  cases a with
  | go t' k => obtain ⟨rfl, hk⟩ := ha; exact flat_go h hk hs
  | begin t' i =>
    cases ha
    simp only [step] at hs
    split at hs
    · cases hs
      refine ⟨h.small, fun gs hg => ?_⟩
      rw [set_frame rfl hg]
      exact .loop _ _
    · cases hs
  | copy i =>
    simp only [step] at hs
    split at hs
    · cases hs; exact ⟨h.small, fun gs hg => shape_heap (h.shape gs hg) fun a c h1 h2 => ⟨c, h1, h2, id⟩⟩
    · rename_i a _
      split at hs
      · rename_i c hc
        split at hs
        · cases hs
        · cases hs
          refine ⟨fun b c' hb => ?_, fun gs hg => shape_heap (h.shape gs hg) fun b c' hb h1 => ?_⟩
          · rcases set_lookup hb with ⟨rfl, e⟩ | ⟨-, hb⟩
            · cases e; exact h.small _ c hc
            · exact h.small b c' hb
          · rcases set_lookup hb with ⟨rfl, e⟩ | ⟨-, hb⟩
            · cases e; simp only at h1; omega
            · exact ⟨c', hb, h1, id⟩
      · cases hs
    · cases hs

end Verif.ValueDrop
