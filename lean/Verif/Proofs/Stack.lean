import Verif.Spec.Stack
/-!
# Ownership invariant of the stack cache
-/
namespace Verif.Stack

@[simp] theorem upd_same {α : Type} (f : Nat → α) (k : Nat) (v : α) : upd f k v k = v := by simp [upd]
theorem upd_other {α : Type} (f : Nat → α) {k i : Nat} (v : α) (h : i ≠ k) : upd f k v i = f i := by simp [upd, h]

/-- The links from `p` go through exactly the addresses in `l`. -/
def Chain (next : Nat → Option Nat) : Option Nat → List Nat → Prop
  | none, l => l = []
  | some a, b :: l => a = b ∧ Chain next (next a) l
  | some _, [] => False

theorem chain_upd {next : Nat → Option Nat} {c : Nat} {v : Option Nat} {l : List Nat} (hc : c ∉ l) :
    ∀ {p : Option Nat}, Chain next p l → Chain (upd next c v) p l := by
  induction l with
  | nil => intro p h; cases p with
    | none => rfl
    | some a => exact h
  | cons b l ih =>
    intro p h
    cases p with
    | none => exact h
    | some a =>
      obtain ⟨rfl, h⟩ := h
      refine ⟨rfl, ?_⟩
      rw [upd_other _ _ (fun e => hc (by rw [← e]; exact List.mem_cons_self ..))]
      exact ih (fun e => hc (List.mem_cons_of_mem _ e)) h

theorem chain_none {next : Nat → Option Nat} {l : List Nat} (h : Chain next none l) : l = [] := by cases l <;> first | rfl | exact nomatch h

theorem chain_some {next : Nat → Option Nat} {a : Nat} {l : List Nat} (h : Chain next (some a) l) : ∃ r, l = a :: r ∧ Chain next (next a) r := by
  cases l with
  | nil => exact absurd h (fun h => h)
  | cons b l => obtain ⟨rfl, h⟩ := h; exact ⟨l, rfl, h⟩

theorem chain_onChain {next : Nat → Option Nat} {l : List Nat} : ∀ {p : Option Nat}, Chain next p l → ∀ {a}, a ∈ l → OnChain next p a := by
  induction l with
  | nil => intro p _ a ha; exact nomatch ha
  | cons b l ih =>
    intro p h a ha
    cases p with
    | none => exact nomatch h
    | some c =>
      obtain ⟨rfl, h⟩ := h
      rcases List.mem_cons.1 ha with rfl | ha
      · exact .head _
      · exact .tail (ih h ha)

theorem onChain_mem {next : Nat → Option Nat} {p : Option Nat} {a : Nat} (h : OnChain next p a) : ∀ {l : List Nat}, Chain next p l → a ∈ l := by
  induction h with
  | head a =>
    intro l hl
    obtain ⟨r, rfl, -⟩ := chain_some hl
    exact List.mem_cons_self ..
  | tail _ ih =>
    intro l hl
    obtain ⟨r, rfl, hr⟩ := chain_some hl
    exact List.mem_cons_of_mem _ (ih hr)

/-- Who has a stack. -/
inductive Own where
  | none
  | cache
  | thr (t : Nat)
  | used
deriving DecidableEq

/-- What a thread has, by where it is. -/
def Holds (s : Sys) (l : List Nat) : Pc → Prop
  | .idle => l = []
  | .take _ => l = []
  | .peek _ p => Chain s.next p l
  | .back _ c n => s.next c = some n ∧ ∃ r, l = c :: r ∧ Chain s.next (some n) r
  | .link _ c p => ∃ r, l = c :: r ∧ Chain s.next p r
  | .loop _ p => Chain s.next p l
  | .drop _ c z n => s.maps c = some z ∧ ∃ r, l = c :: r ∧ Chain s.next n r
  | .reset c z => l = [c] ∧ s.maps c = some z
  | .load c => l = [c]
  | .cas c => l = [c]

def Pc.isReset : Pc → Bool
  | .reset _ _ => true
  | _ => false

/-- `own` says who has each stack, `C` is the content of the cache, `T` is what each thread has. -/
structure Inv (s : Sys) (own : Nat → Own) (C : List Nat) (T : Nat → List Nat) : Prop where
  cache : Chain s.next s.cache C
  nodupC : C.Nodup
  ownC : ∀ a, a ∈ C ↔ own a = .cache
  thr : ∀ t, Holds s (T t) (s.pc t)
  nodupT : ∀ t, (T t).Nodup
  ownT : ∀ t a, a ∈ T t ↔ own a = .thr t
  used : ∀ a z, (a, z) ∈ s.used → own a = .used ∧ s.maps a = some z
  ownU : ∀ a, own a = .used → ∃ z, (a, z) ∈ s.used
  maps : ∀ a, s.maps a = none ↔ own a = .none
  sizeC : ∀ a, own a = .cache → s.maps a = some (s.size a)
  sizeT : ∀ t a, own a = .thr t → (s.pc t).isReset = false → s.maps a = some (s.size a)
  ub : s.ub = false
  inUse : ∀ a, inUse a s.trace = true ↔ own a = .used
  live : ∀ a, live a s.trace = s.maps a
  ok : stacksOk s.trace

theorem chain_frame {n n' : Nat → Option Nat} {l : List Nat} (h : ∀ a ∈ l, n' a = n a) : ∀ {p : Option Nat}, Chain n p l → Chain n' p l := by
  induction l with
  | nil => intro p hp; cases p with
    | none => rfl
    | some a => exact hp
  | cons b l ih =>
    intro p hp
    cases p with
    | none => exact hp
    | some a =>
      obtain ⟨rfl, hp⟩ := hp
      exact ⟨rfl, by rw [h a (List.mem_cons_self ..)]; exact ih (fun x hx => h x (List.mem_cons_of_mem _ hx)) hp⟩

theorem holds_frame {s s' : Sys} {l : List Nat} {p : Pc} (hn : ∀ a ∈ l, s'.next a = s.next a) (hm : ∀ a ∈ l, s'.maps a = s.maps a) (h : Holds s l p) :
    Holds s' l p := by
  cases p with
  | idle => exact h
  | take => exact h
  | peek sz p => exact chain_frame hn h
  | back sz c n =>
    obtain ⟨h1, r, rfl, h2⟩ := h
    exact ⟨by rw [hn c (List.mem_cons_self ..)]; exact h1, r, rfl, chain_frame (fun a ha => hn a (List.mem_cons_of_mem _ ha)) h2⟩
  | link sz c p =>
    obtain ⟨r, rfl, h2⟩ := h
    exact ⟨r, rfl, chain_frame (fun a ha => hn a (List.mem_cons_of_mem _ ha)) h2⟩
  | loop sz p => exact chain_frame hn h
  | drop sz c z n =>
    obtain ⟨h1, r, rfl, h2⟩ := h
    exact ⟨by rw [hm c (List.mem_cons_self ..)]; exact h1, r, rfl, chain_frame (fun a ha => hn a (List.mem_cons_of_mem _ ha)) h2⟩
  | reset c z =>
    obtain ⟨rfl, h1⟩ := h
    exact ⟨rfl, by rw [hm c (List.mem_cons_self ..)]; exact h1⟩
  | load c => exact h
  | cas c => exact h

/-- A step of thread `t` that leaves the memory of other threads alone. -/
theorem inv_move {s s' : Sys} {own own' : Nat → Own} {C C' : List Nat} {T : Nat → List Nat} (h : Inv s own C T) (t : Nat) (p : Pc) (l : List Nat)
    (hpc : s'.pc = upd s.pc t p)
    (hother : ∀ u a, u ≠ t → (own' a = .thr u ↔ own a = .thr u))
    (hmem : ∀ u a, u ≠ t → own a = .thr u → s'.next a = s.next a ∧ s'.maps a = s.maps a ∧ s'.size a = s.size a)
    (cache : Chain s'.next s'.cache C') (nodupC : C'.Nodup) (ownC : ∀ a, a ∈ C' ↔ own' a = .cache)
    (thr : Holds s' l p) (nodupT : l.Nodup) (ownT : ∀ a, a ∈ l ↔ own' a = .thr t)
    (used : ∀ a z, (a, z) ∈ s'.used → own' a = .used ∧ s'.maps a = some z)
    (ownU : ∀ a, own' a = .used → ∃ z, (a, z) ∈ s'.used)
    (maps : ∀ a, s'.maps a = none ↔ own' a = .none)
    (sizeC : ∀ a, own' a = .cache → s'.maps a = some (s'.size a))
    (sizeT : ∀ a, own' a = .thr t → p.isReset = false → s'.maps a = some (s'.size a))
    (ub : s'.ub = false)
    (inU : ∀ a, Stack.inUse a s'.trace = true ↔ own' a = .used)
    (liv : ∀ a, Stack.live a s'.trace = s'.maps a)
    (ok : stacksOk s'.trace) : Inv s' own' C' (upd T t l) := by
  refine ⟨cache, nodupC, ownC, ?_, ?_, ?_, used, ownU, maps, sizeC, ?_, ub, inU, liv, ok⟩
  · intro u
    rw [hpc]
    by_cases hu : u = t
    · subst hu; rw [upd_same, upd_same]; exact thr
    · rw [upd_other _ _ hu, upd_other _ _ hu]
      exact holds_frame (fun a ha => (hmem u a hu ((h.ownT u a).1 ha)).1) (fun a ha => (hmem u a hu ((h.ownT u a).1 ha)).2.1) (h.thr u)
  · intro u
    by_cases hu : u = t
    · subst hu; rw [upd_same]; exact nodupT
    · rw [upd_other _ _ hu]; exact h.nodupT u
  · intro u a
    by_cases hu : u = t
    · subst hu; rw [upd_same]; exact ownT a
    · rw [upd_other _ _ hu, hother u a hu]; exact h.ownT u a
  · intro u a ha hr
    rw [hpc] at hr
    by_cases hu : u = t
    · subst hu; rw [upd_same] at hr; exact sizeT a ha hr
    · rw [upd_other _ _ hu] at hr
      have ha := (hother u a hu).1 ha
      obtain ⟨-, h2, h3⟩ := hmem u a hu ha
      rw [h2, h3]
      exact h.sizeT u a ha hr

/-- A step that changes only the header of a stack that thread `t` has, or that is in use. -/
theorem inv_header {s s' : Sys} {own : Nat → Own} {C : List Nat} {T : Nat → List Nat} (h : Inv s own C T) (t : Nat) (p : Pc) (c : Nat)
    (hpc : s'.pc = upd s.pc t p) (hc : own c = .thr t ∨ own c = .used)
    (hn : ∀ a, a ≠ c → s'.next a = s.next a) (hz : ∀ a, a ≠ c → s'.size a = s.size a)
    (hm : s'.maps = s.maps) (hca : s'.cache = s.cache) (hu : s'.used = s.used) (htr : s'.trace = s.trace) (hub : s'.ub = false)
    (thr : Holds s' (T t) p) (sizeT : ∀ a, own a = .thr t → p.isReset = false → s.maps a = some (s'.size a)) : ∃ own C T, Inv s' own C T := by
  have hne : ∀ a, own a = .cache → a ≠ c := by rintro a ha rfl; rw [ha] at hc; rcases hc with h | h <;> exact nomatch h
  refine ⟨own, C, upd T t (T t), inv_move h t p (T t) hpc (fun _ _ _ => Iff.rfl) ?_ ?_ h.nodupC h.ownC thr (h.nodupT t) (h.ownT t) ?_ ?_ ?_ ?_ ?_ hub ?_ ?_ ?_⟩
  · intro u a hut ha
    have : a ≠ c := by
      rintro rfl
      rw [ha] at hc
      rcases hc with h | h
      · exact hut (Own.thr.inj h)
      · exact nomatch h
    exact ⟨hn a this, by rw [hm], hz a this⟩
  · rw [hca]
    exact chain_frame (fun a ha => hn a (hne a ((h.ownC a).1 ha))) h.cache
  · rw [hu, hm]; exact h.used
  · rw [hu]; exact h.ownU
  · rw [hm]; exact h.maps
  · intro a ha
    rw [hm, hz a (hne a ha)]; exact h.sizeC a ha
  · rw [hm]; exact sizeT
  · rw [htr]; exact h.inUse
  · rw [htr, hm]; exact h.live
  · rw [htr]; exact h.ok

/-- A step that changes only where thread `t` is. -/
theorem inv_pc {s s' : Sys} {own : Nat → Own} {C : List Nat} {T : Nat → List Nat} (h : Inv s own C T) (t : Nat) (p : Pc)
    (hpc : s'.pc = upd s.pc t p) (hn : s'.next = s.next) (hz : s'.size = s.size)
    (hm : s'.maps = s.maps) (hca : s'.cache = s.cache) (hu : s'.used = s.used) (htr : s'.trace = s.trace) (hub : s'.ub = false)
    (thr : Holds s (T t) p) (hr : (s.pc t).isReset = false) : ∃ own C T, Inv s' own C T := by
  refine ⟨own, C, upd T t (T t), inv_move h t p (T t) hpc (fun _ _ _ => Iff.rfl) ?_ ?_ h.nodupC h.ownC ?_ (h.nodupT t) (h.ownT t) ?_ ?_ ?_ ?_ ?_ hub ?_ ?_ ?_⟩
  · intro u a _ _
    exact ⟨by rw [hn], by rw [hm], by rw [hz]⟩
  · rw [hca, hn]; exact h.cache
  · exact holds_frame (fun a _ => by rw [hn]) (fun a _ => by rw [hm]) thr
  · rw [hu, hm]; exact h.used
  · rw [hu]; exact h.ownU
  · rw [hm]; exact h.maps
  · rw [hm, hz]; exact h.sizeC
  · intro a ha _; rw [hm, hz]; exact h.sizeT t a ha hr
  · rw [htr]; exact h.inUse
  · rw [htr, hm]; exact h.live
  · rw [htr]; exact h.ok

theorem inv_touch {s : Sys} {own : Nat → Own} {C : List Nat} {T : Nat → List Nat} (h : Inv s own C T) {c : Nat} (hc : own c ≠ .none) : (s.touch c).ub = false := by
  have : s.maps c ≠ none := fun e => hc ((h.maps c).1 e)
  show (s.ub || (s.maps c).isNone) = false
  cases hm : s.maps c with
  | none => exact absurd hm this
  | some _ => rw [h.ub]; rfl

end Verif.Stack
