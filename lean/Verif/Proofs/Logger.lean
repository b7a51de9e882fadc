import Verif.Spec.Logger
/-!
# Invariants of the logger
-/
namespace Verif.Logger

@[simp] theorem upd_same {α : Type} (f : Nat → α) (k : Nat) (v : α) : upd f k v k = v := by simp [upd]
theorem upd_other {α : Type} (f : Nat → α) {k i : Nat} (v : α) (h : i ≠ k) : upd f k v i = f i := by simp [upd, h]

/-- The messages that a thread has taken. -/
def Pc.todo : Pc → List Msg
  | .reading _ _ l => l
  | .writing _ _ _ l => l
  | _ => []

def Pc.hasS : Pc → Bool
  | .reading _ _ _ => true
  | .writing _ _ _ _ => true
  | _ => false

def Pc.hasQ : Pc → Bool
  | .locking _ => true
  | _ => false

/-- The messages that are being written. -/
def flight (s : Sys) : List Msg :=
  match s.slock with
  | some t => (s.pc t).todo
  | none => []

def ids (l : List Msg) : List Nat := l.map fun m => m.id

structure Inv (s : Sys) : Prop where
  slock : ∀ t, s.slock = some t ↔ (s.pc t).hasS = true
  qlock : ∀ t, s.qlock = some t ↔ (s.pc t).hasQ = true
  order : enqueued s.trace = handled s.trace ++ ids (flight s) ++ ids s.queue
  fresh : ∀ id ∈ enqueued s.trace, id < s.ids
  nodup : (enqueued s.trace).Nodup
  /-- while thread `t` has messages of `synchronize()` in its hands, the ones that it was called for are among them or have been handled -/
  sync : ∀ t n l, (s.pc t = .reading .sync n l ∨ ∃ lv, s.pc t = .writing .sync n lv l) → ∀ id ∈ before t s.trace, id ∈ handled s.trace ∨ id ∈ ids l
  before : ∀ t, ∀ id ∈ before t s.trace, id ∈ enqueued s.trace
  ok : syncsOk s.trace
  confR : ∀ lv, s.levels = lv → Ev.loaded lv ∈ s.trace
  confW : ∀ t m n lv l, s.pc t = .writing m n lv l → Ev.loaded lv ∈ s.trace
  dropped : ∀ id l, Ev.dropped id l ∈ s.trace → ∃ lv, Ev.loaded lv ∈ s.trace ∧ (lv[l]? = none ∨ (lv[l]? = some true ∧ 1000 < (enqueued s.trace).length))
  size : ∀ t m n l, (s.pc t = .reading m n l ∨ ∃ lv, s.pc t = .writing m n lv l) → n ≤ (enqueued s.trace).length
  level : ∀ m ∈ flight s ++ s.queue, Ev.enqueued m.id m.level ∈ s.trace
  levelD : ∀ id l, Ev.dropped id l ∈ s.trace → Ev.enqueued id l ∈ s.trace

theorem handle_cases (m : Mode) (n : Nat) (lv : List Bool) (msg : Msg) :
    handle m n lv msg = .written msg.id ∨ (handle m n lv msg = .dropped msg.id msg.level ∧ (lv[msg.level]? = none ∨ (lv[msg.level]? = some true ∧ 1000 < n))) := by
  cases m with
  | loop =>
    simp only [handle]
    cases h : lv[msg.level]? with
    | none => exact .inr ⟨rfl, .inl rfl⟩
    | some b =>
      cases b with
      | false => exact .inl (by simp)
      | true => by_cases hn : n > 1000 <;> simp [hn]
  | sync =>
    simp only [handle]
    by_cases h : msg.level < lv.length
    · rw [if_pos h]; exact .inl rfl
    · rw [if_neg h]; exact .inr ⟨rfl, .inl (List.getElem?_eq_none (by omega))⟩

theorem handled_handle (m : Mode) (n : Nat) (lv : List Bool) (msg : Msg) (tr : List Ev) :
    handled (handle m n lv msg :: tr) = handled tr ++ [msg.id] ∧ enqueued (handle m n lv msg :: tr) = enqueued tr ∧
    (∀ t, before t (handle m n lv msg :: tr) = before t tr) ∧ (syncsOk tr → syncsOk (handle m n lv msg :: tr)) := by
  rcases handle_cases m n lv msg with h | ⟨h, -⟩ <;> rw [h] <;> exact ⟨rfl, rfl, fun _ => rfl, id⟩

theorem flight_eq {s s' : Sys} (h1 : s'.slock = s.slock) (h2 : ∀ t, s.slock = some t → (s'.pc t).todo = (s.pc t).todo) : flight s' = flight s := by
  unfold flight
  rw [h1]
  split
  · exact h2 _ (by assumption)
  · rfl

theorem inv_ret {s s' : Sys} {t : Nat} {m : Mode} (h : Inv s) (htr : s'.trace = ret s t m) (hpc : s'.pc = upd s.pc t .idle) (hq : s'.queue = s.queue)
    (hids : s'.ids = s.ids) (hlv : s'.levels = s.levels)
    (hsl : ∀ u, s'.slock = some u ↔ (s'.pc u).hasS = true) (hql : ∀ u, s'.qlock = some u ↔ (s'.pc u).hasQ = true)
    (hf : flight s = []) (hf' : flight s' = []) (hok : m = .sync → ∀ id ∈ before t s.trace, id ∈ handled s.trace) : Inv s' := by
  have e : enqueued s'.trace = enqueued s.trace ∧ handled s'.trace = handled s.trace ∧ (∀ u, Logger.before u s'.trace = Logger.before u s.trace) := by
    rw [htr]; unfold ret
    split <;> exact ⟨rfl, rfl, fun _ => rfl⟩
  obtain ⟨e1, e2, e3⟩ := e
  have hmem : ∀ e, (∀ u, e ≠ Ev.returned u) → (e ∈ s'.trace ↔ e ∈ s.trace) := by
    intro e he
    rw [htr]; unfold ret
    split
    · rw [List.mem_cons]; exact ⟨fun h => h.resolve_left (he t), .inr⟩
    · rfl
  refine ⟨hsl, hql, ?_, ?_, ?_, ?_, ?_, ?_, ?_, ?_, ?_, ?_, ?_, ?_⟩
  · rw [e1, e2, hf', hq, ← hf]; exact h.order
  · rw [e1, hids]; exact h.fresh
  · rw [e1]; exact h.nodup
  · intro u n l hu id hid
    rw [hpc] at hu
    rw [e3] at hid
    rw [e2]
    by_cases hut : u = t
    · subst hut; rw [upd_same] at hu; rcases hu with hu | ⟨_, hu⟩ <;> exact nomatch hu
    · rw [upd_other _ _ hut] at hu; exact h.sync u n l hu id hid
  · intro u; rw [e3, e1]; exact h.before u
  · rw [htr]; unfold ret
    split
    · rename_i hm; exact ⟨hok hm, h.ok⟩
    · exact h.ok
  · intro lv hl; rw [hmem (.loaded lv) (fun _ e => nomatch e)]; rw [hlv] at hl; exact h.confR lv hl
  · intro u m' n lv l hu
    rw [hpc] at hu
    rw [hmem (.loaded lv) (fun _ e => nomatch e)]
    by_cases hut : u = t
    · subst hut; rw [upd_same] at hu; exact nomatch hu
    · rw [upd_other _ _ hut] at hu; exact h.confW u m' n lv l hu
  · intro id l hd
    rw [hmem (.dropped id l) (fun _ e => nomatch e)] at hd
    obtain ⟨lv, h1, h2⟩ := h.dropped id l hd
    exact ⟨lv, by rw [hmem (.loaded lv) (fun _ e => nomatch e)]; exact h1, by rw [e1]; exact h2⟩
  · intro u m' n l hu
    rw [hpc] at hu
    rw [e1]
    by_cases hut : u = t
    · subst hut; rw [upd_same] at hu; rcases hu with hu | ⟨_, hu⟩ <;> exact nomatch hu
    · rw [upd_other _ _ hut] at hu; exact h.size u m' n l hu
  · intro x hx
    rw [hmem (.enqueued _ _) (fun _ e => nomatch e)]
    rw [hf', hq, ← hf] at hx; exact h.level x hx
  · intro id l hd
    exact (hmem (.enqueued id l) (fun _ e => nomatch e)).2 (h.levelD id l ((hmem (.dropped id l) (fun _ e => nomatch e)).1 hd))


theorem inv_go {s s' : Sys} {t : Nat} (h : Inv s) (hs : go s t = some s') : Inv s' := by
  unfold go at hs
  split at hs
  · rename_i m hp
    split at hs
    · rename_i hc
      cases hs
      have hsn : s.slock ≠ some t := fun e => by have := (h.slock t).1 e; rw [hp] at this; exact nomatch this
      have hf : flight { s with qlock := some t, pc := upd s.pc t (.locking m) } = flight s :=
        flight_eq rfl fun u hu => by
          have : u ≠ t := fun e => hsn (e ▸ hu)
          show (upd s.pc t _ u).todo = _
          rw [upd_other _ _ this]
      refine ⟨?_, ?_, by rw [hf]; exact h.order, h.fresh, h.nodup, ?_, h.before, h.ok, h.confR, ?_, h.dropped, ?_, by rw [hf]; exact h.level, h.levelD⟩
      · intro u
        by_cases hu : u = t
        · subst hu; show _ ↔ (upd s.pc u _ u).hasS = true; rw [upd_same]; exact ⟨fun e => absurd e hsn, fun e => nomatch e⟩
        · show _ ↔ (upd s.pc t _ u).hasS = true; rw [upd_other _ _ hu]; exact h.slock u
      · intro u
        by_cases hu : u = t
        · subst hu; show _ ↔ (upd s.pc u _ u).hasQ = true; rw [upd_same]; exact ⟨fun _ => rfl, fun _ => rfl⟩
        · show some t = some u ↔ (upd s.pc t _ u).hasQ = true
          rw [upd_other _ _ hu, ← h.qlock u, hc.1]
          exact ⟨fun e => absurd (Option.some.inj e).symm hu, fun e => nomatch e⟩
      · intro u n l hu
        by_cases hut : u = t
        · subst hut; simp only [upd_same] at hu; rcases hu with hu | ⟨_, hu⟩ <;> exact nomatch hu
        · simp only [upd_other _ _ hut] at hu; exact h.sync u n l hu
      · intro u m' n lv l hu
        by_cases hut : u = t
        · subst hut; simp only [upd_same] at hu; exact nomatch hu
        · simp only [upd_other _ _ hut] at hu; exact h.confW u m' n lv l hu
      · intro u m' n l hu
        by_cases hut : u = t
        · subst hut; simp only [upd_same] at hu; rcases hu with hu | ⟨_, hu⟩ <;> exact nomatch hu
        · simp only [upd_other _ _ hut] at hu; exact h.size u m' n l hu
    · exact nomatch hs
  · rename_i m hp
    split at hs
    · rename_i hsl
      have hsn : ∀ u, (s.pc u).hasS = false := fun u => by
        cases hx : (s.pc u).hasS with
        | false => rfl
        | true => have := (h.slock u).2 hx; rw [hsl] at this; exact nomatch this
      have hfl : flight s = [] := by simp [flight, hsl]
      have hql : ∀ u, none = some u ↔ (upd s.pc t .idle u).hasQ = true := by
        intro u
        refine ⟨fun e => (nomatch e), fun e => ?_⟩
        by_cases hut : u = t
        · subst hut; rw [upd_same] at e; exact nomatch e
        · rw [upd_other _ _ hut, ← h.qlock u] at e
          have h2 : s.qlock = some t := (h.qlock t).2 (by rw [hp]; rfl)
          rw [h2] at e; exact absurd (Option.some.inj e).symm hut
      split at hs
      · rename_i hq
        cases hs
        refine inv_ret h rfl rfl rfl rfl rfl ?_ hql hfl (by simp [flight, hsl]) ?_
        · intro u
          show s.slock = some u ↔ (upd s.pc t .idle u).hasS = true
          by_cases hut : u = t
          · subst hut; rw [upd_same, hsl]; exact ⟨fun e => (nomatch e), fun e => (nomatch e)⟩
          · rw [upd_other _ _ hut]; exact h.slock u
        · intro _ id hid
          have := h.before t id hid
          rw [h.order, hfl, hq.2] at this
          simpa [ids] using this
      · cases hs
        refine ⟨?_, ?_, ?_, h.fresh, h.nodup, ?_, h.before, h.ok, h.confR, ?_, h.dropped, ?_, ?_, h.levelD⟩
        · intro u
          show some t = some u ↔ (upd s.pc t _ u).hasS = true
          by_cases hut : u = t
          · subst hut; rw [upd_same]; exact ⟨fun _ => rfl, fun _ => rfl⟩
          · rw [upd_other _ _ hut, hsn u]; exact ⟨fun e => absurd (Option.some.inj e).symm hut, fun e => (nomatch e)⟩
        · intro u
          show none = some u ↔ (upd s.pc t _ u).hasQ = true
          rw [hql u]
          by_cases hut : u = t
          · subst hut; rw [upd_same, upd_same]; exact Iff.rfl
          · rw [upd_other _ _ hut, upd_other _ _ hut]
        · show enqueued s.trace = handled s.trace ++ ids (upd s.pc t _ t).todo ++ ids []
          rw [upd_same, h.order, hfl]; simp [ids, Pc.todo]
        · intro u n l hu id hid
          by_cases hut : u = t
          · subst hut
            simp only [upd_same] at hu
            rcases hu with hu | ⟨_, hu⟩
            · cases hu
              have := h.before u id hid
              rw [h.order, hfl] at this
              simpa [ids] using this
            · exact nomatch hu
          · simp only [upd_other _ _ hut] at hu; exact h.sync u n l hu id hid
        · intro u m' n lv l hu
          by_cases hut : u = t
          · subst hut; simp only [upd_same] at hu; exact nomatch hu
          · simp only [upd_other _ _ hut] at hu; exact h.confW u m' n lv l hu
        · intro u m' n l hu
          by_cases hut : u = t
          · subst hut; simp only [upd_same] at hu
            rcases hu with hu | ⟨_, hu⟩
            · cases hu
              show s.queue.length ≤ (enqueued s.trace).length
              rw [h.order]; simp [ids]; omega
            · exact nomatch hu
          · simp only [upd_other _ _ hut] at hu; exact h.size u m' n l hu
        · intro x hx
          simp only [flight, upd_same, Pc.todo, List.append_nil] at hx
          exact h.level x (List.mem_append_right _ hx)
    · exact nomatch hs
  · rename_i m n todo hp
    cases hs
    have hst : s.slock = some t := (h.slock t).2 (by rw [hp]; rfl)
    have hf : flight { s with pc := upd s.pc t (.writing m n s.levels todo) } = flight s :=
      flight_eq rfl fun u hu => by
        have : u = t := Option.some.inj (by rw [← hu, hst])
        subst this
        show (upd s.pc u _ u).todo = _
        rw [upd_same, hp]; rfl
    refine ⟨?_, ?_, by rw [hf]; exact h.order, h.fresh, h.nodup, ?_, h.before, h.ok, h.confR, ?_, h.dropped, ?_, by rw [hf]; exact h.level, h.levelD⟩
    · intro u
      show s.slock = some u ↔ (upd s.pc t _ u).hasS = true
      by_cases hut : u = t
      · subst hut; rw [upd_same]; exact ⟨fun _ => rfl, fun _ => hst⟩
      · rw [upd_other _ _ hut]; exact h.slock u
    · intro u
      show s.qlock = some u ↔ (upd s.pc t _ u).hasQ = true
      by_cases hut : u = t
      · subst hut; rw [upd_same, h.qlock u, hp]; exact Iff.rfl
      · rw [upd_other _ _ hut]; exact h.qlock u
    · intro u n' l hu
      by_cases hut : u = t
      · subst hut
        simp only [upd_same] at hu
        rcases hu with hu | ⟨lv, hu⟩
        · exact nomatch hu
        · cases hu; exact h.sync u n todo (.inl hp)
      · simp only [upd_other _ _ hut] at hu; exact h.sync u n' l hu
    · intro u m' n' lv l hu
      by_cases hut : u = t
      · subst hut; simp only [upd_same] at hu; cases hu; exact h.confR _ rfl
      · simp only [upd_other _ _ hut] at hu; exact h.confW u m' n' lv l hu
    · intro u m' n' l hu
      by_cases hut : u = t
      · subst hut; simp only [upd_same] at hu
        rcases hu with hu | ⟨lv, hu⟩
        · exact nomatch hu
        · cases hu; exact h.size u m n todo (.inl hp)
      · simp only [upd_other _ _ hut] at hu; exact h.size u m' n' l hu
  · rename_i m n lv msg todo hp
    cases hs
    have hst : s.slock = some t := (h.slock t).2 (by rw [hp]; rfl)
    have hfs : flight s = msg :: todo := by simp [flight, hst, hp, Pc.todo]
    obtain ⟨e1, e2, e3, e4⟩ := handled_handle m n lv msg s.trace
    have hmem : ∀ e, e ∈ s.trace → e ∈ handle m n lv msg :: s.trace := fun e he => List.mem_cons_of_mem _ he
    refine ⟨?_, ?_, ?_, ?_, ?_, ?_, ?_, e4 h.ok, fun lv hl => hmem _ (h.confR lv hl), ?_, ?_, ?_, ?_, ?_⟩
    · intro u
      show s.slock = some u ↔ (upd s.pc t _ u).hasS = true
      by_cases hut : u = t
      · subst hut; rw [upd_same]; exact ⟨fun _ => rfl, fun _ => hst⟩
      · rw [upd_other _ _ hut]; exact h.slock u
    · intro u
      show s.qlock = some u ↔ (upd s.pc t _ u).hasQ = true
      by_cases hut : u = t
      · subst hut; rw [upd_same, h.qlock u, hp]; exact Iff.rfl
      · rw [upd_other _ _ hut]; exact h.qlock u
    · show enqueued (handle m n lv msg :: s.trace) = handled (handle m n lv msg :: s.trace) ++ ids (flight { s with pc := upd s.pc t (.writing m n lv todo), trace := handle m n lv msg :: s.trace }) ++ ids s.queue
      rw [e1, e2, h.order, hfs]
      simp [flight, hst, Pc.todo, ids]
    · show ∀ id ∈ enqueued (handle m n lv msg :: s.trace), _
      rw [e2]; exact h.fresh
    · show (enqueued (handle m n lv msg :: s.trace)).Nodup
      rw [e2]; exact h.nodup
    · intro u n' l hu id hid
      have hid : id ∈ Logger.before u (handle m n lv msg :: s.trace) := hid
      rw [e3] at hid
      show id ∈ handled (handle m n lv msg :: s.trace) ∨ _
      rw [e1]
      by_cases hut : u = t
      · subst hut
        simp only [upd_same] at hu
        rcases hu with hu | ⟨lv', hu⟩
        · exact nomatch hu
        · cases hu
          have hid : id ∈ Logger.before u (handle .sync n lv msg :: s.trace) := hid
          rw [(handled_handle .sync n lv msg s.trace).2.2.1] at hid
          rcases h.sync u n (msg :: todo) (.inr ⟨lv, hp⟩) id hid with h1 | h1
          · exact .inl (List.mem_append_left _ h1)
          · rcases List.mem_cons.1 h1 with rfl | h1
            · exact .inl (by simp)
            · exact .inr h1
      · simp only [upd_other _ _ hut] at hu
        exact (h.sync u n' l hu id hid).imp (List.mem_append_left _) fun h => h
    · intro u id hid
      have hid : id ∈ Logger.before u (handle m n lv msg :: s.trace) := hid
      rw [e3] at hid
      show id ∈ enqueued (handle m n lv msg :: s.trace)
      rw [e2]; exact h.before u id hid
    · intro u m' n' lv' l hu
      by_cases hut : u = t
      · subst hut; simp only [upd_same] at hu; cases hu; exact hmem _ (h.confW u m n lv _ hp)
      · simp only [upd_other _ _ hut] at hu; exact hmem _ (h.confW u m' n' lv' l hu)
    · intro id l hd
      rcases List.mem_cons.1 hd with hd | hd
      · rcases handle_cases m n lv msg with h1 | ⟨h1, h2⟩
        · rw [h1] at hd; exact nomatch hd
        · rw [h1] at hd; cases hd
          refine ⟨lv, hmem _ (h.confW t m n lv _ hp), h2.imp (fun h => h) fun h3 => ⟨h3.1, ?_⟩⟩
          rw [e2]
          exact Nat.lt_of_lt_of_le h3.2 (h.size t m n _ (.inr ⟨lv, hp⟩))
      · obtain ⟨lv', h1, h2⟩ := h.dropped id l hd
        exact ⟨lv', hmem _ h1, by rw [e2]; exact h2⟩
    · intro u m' n' l hu
      show _ ≤ (enqueued (handle m n lv msg :: s.trace)).length
      rw [e2]
      by_cases hut : u = t
      · subst hut; simp only [upd_same] at hu
        rcases hu with hu | ⟨lv', hu⟩
        · exact nomatch hu
        · cases hu; exact h.size u m n _ (.inr ⟨lv, hp⟩)
      · simp only [upd_other _ _ hut] at hu; exact h.size u m' n' l hu
    · intro x hx
      refine hmem _ (h.level x ?_)
      rw [hfs]
      rcases List.mem_append.1 hx with hx | hx
      · simp only [flight, hst, upd_same, Pc.todo] at hx
        exact List.mem_append_left _ (List.mem_cons_of_mem _ hx)
      · exact List.mem_append_right _ hx
    · intro id l hd
      refine hmem _ ?_
      rcases List.mem_cons.1 hd with hd | hd
      · rcases handle_cases m n lv msg with h1 | ⟨h1, h2⟩
        · rw [h1] at hd; exact nomatch hd
        · rw [h1] at hd; cases hd
          exact h.level msg (by rw [hfs]; simp)
      · exact h.levelD id l hd
  · rename_i m n lv hp
    cases hs
    have hst : s.slock = some t := (h.slock t).2 (by rw [hp]; rfl)
    have hfs : flight s = [] := by simp [flight, hst, hp, Pc.todo]
    refine inv_ret h rfl rfl rfl rfl rfl ?_ ?_ hfs (by simp [flight]) ?_
    · intro u
      show none = some u ↔ (upd s.pc t .idle u).hasS = true
      by_cases hut : u = t
      · subst hut; rw [upd_same]; exact ⟨fun e => (nomatch e), fun e => (nomatch e)⟩
      · rw [upd_other _ _ hut, ← h.slock u, hst]; exact ⟨fun e => (nomatch e), fun e => absurd (Option.some.inj e).symm hut⟩
    · intro u
      show s.qlock = some u ↔ (upd s.pc t .idle u).hasQ = true
      by_cases hut : u = t
      · subst hut; rw [upd_same, h.qlock u, hp]; exact Iff.rfl
      · rw [upd_other _ _ hut]; exact h.qlock u
    · intro hm id hid
      subst hm
      rcases h.sync t n [] (.inr ⟨lv, hp⟩) id hid with h1 | h1
      · exact h1
      · exact nomatch h1
  · exact nomatch hs

theorem inv_step {s s' : Sys} {a : Act} (h : Inv s) (hs : step s a = some s') : Inv s' := by
  cases a with
  | go t => exact inv_go h hs
  | enqueue level =>
    simp only [step] at hs
    split at hs
    · cases hs
      refine ⟨h.slock, h.qlock, ?_, ?_, ?_, h.sync, ?_, h.ok, fun lv hl => List.mem_cons_of_mem _ (h.confR lv hl),
        fun t m n lv l hu => List.mem_cons_of_mem _ (h.confW t m n lv l hu), ?_, ?_, ?_, ?_⟩
      · show enqueued s.trace ++ [s.ids] = handled s.trace ++ ids (flight s) ++ ids (s.queue ++ [⟨s.ids, level⟩])
        rw [h.order]; simp [ids]
      · intro id hid
        rcases List.mem_append.1 (show id ∈ enqueued s.trace ++ [s.ids] from hid) with h1 | h1
        · exact Nat.lt_succ_of_lt (h.fresh id h1)
        · cases List.mem_singleton.1 h1; exact Nat.lt_succ_self _
      · show (enqueued s.trace ++ [s.ids]).Nodup
        refine List.nodup_append.2 ⟨h.nodup, by simp, ?_⟩
        intro x hx y hy
        cases List.mem_singleton.1 hy
        exact Nat.ne_of_lt (h.fresh x hx)
      · intro t id hid
        exact List.mem_append_left _ (h.before t id hid)
      · intro id l hd
        rcases List.mem_cons.1 hd with hd | hd
        · exact nomatch hd
        · obtain ⟨lv, h1, h2⟩ := h.dropped id l hd
          refine ⟨lv, List.mem_cons_of_mem _ h1, h2.imp (fun h => h) fun h3 => ⟨h3.1, ?_⟩⟩
          show 1000 < (enqueued s.trace ++ [s.ids]).length
          rw [List.length_append]; exact Nat.lt_of_lt_of_le h3.2 (Nat.le_add_right _ _)
      · intro u m n l hu
        show n ≤ (enqueued s.trace ++ [s.ids]).length
        rw [List.length_append]; exact Nat.le_trans (h.size u m n l hu) (Nat.le_add_right _ _)
      · intro x hx
        rcases List.mem_append.1 hx with hx | hx
        · exact List.mem_cons_of_mem _ (h.level x (List.mem_append_left _ hx))
        · rcases List.mem_append.1 hx with hx | hx
          · exact List.mem_cons_of_mem _ (h.level x (List.mem_append_right _ hx))
          · cases List.mem_singleton.1 hx; exact List.mem_cons_self ..
      · intro id l hd
        rcases List.mem_cons.1 hd with hd | hd
        · exact nomatch hd
        · exact List.mem_cons_of_mem _ (h.levelD id l hd)
    · exact nomatch hs
  | reload levels =>
    simp only [step] at hs
    split at hs
    · cases hs
      refine ⟨h.slock, h.qlock, h.order, h.fresh, h.nodup, h.sync, h.before, h.ok, ?_, fun t m n lv l hu => List.mem_cons_of_mem _ (h.confW t m n lv l hu), ?_, h.size, ?_, ?_⟩
      · rintro lv rfl; exact List.mem_cons_self ..
      · intro id l hd
        rcases List.mem_cons.1 hd with hd | hd
        · exact nomatch hd
        · obtain ⟨lv, h1, h2⟩ := h.dropped id l hd
          exact ⟨lv, List.mem_cons_of_mem _ h1, h2⟩
      · intro x hx; exact List.mem_cons_of_mem _ (h.level x hx)
      · intro id l hd
        rcases List.mem_cons.1 hd with hd | hd
        · exact nomatch hd
        · exact List.mem_cons_of_mem _ (h.levelD id l hd)
    · exact nomatch hs
  | call t m =>
    simp only [step] at hs
    split at hs
    · rename_i hp
      cases hs
      have hsn : s.slock ≠ some t := fun e => by have := (h.slock t).1 e; rw [hp] at this; exact nomatch this
      have hf : ∀ tr, flight { s with pc := upd s.pc t (.entering m), trace := tr } = flight s := fun tr =>
        flight_eq rfl fun u hu => by
          have : u ≠ t := fun e => hsn (e ▸ hu)
          show (upd s.pc t _ u).todo = _
          rw [upd_other _ _ this]
      generalize htr : (if m = .sync then Ev.called t :: s.trace else s.trace) = tr
      have e : enqueued tr = enqueued s.trace ∧ handled tr = handled s.trace ∧ (∀ u, u ≠ t → Logger.before u tr = Logger.before u s.trace) ∧
          (Logger.before t tr = Logger.before t s.trace ∨ Logger.before t tr = enqueued s.trace) ∧ (syncsOk s.trace → syncsOk tr) ∧
          (∀ e, (∀ u, e ≠ Ev.called u) → (e ∈ tr ↔ e ∈ s.trace)) := by
        subst htr
        split
        · refine ⟨rfl, rfl, fun u hu => if_neg fun e => hu e.symm, .inr (if_pos rfl), id, fun e he => ?_⟩
          rw [List.mem_cons]; exact ⟨fun h => h.resolve_left (he t), .inr⟩
        · exact ⟨rfl, rfl, fun _ _ => rfl, .inl rfl, id, fun _ _ => Iff.rfl⟩
      obtain ⟨e1, e2, e3, e4, e5, e6⟩ := e
      refine ⟨?_, ?_, ?_, ?_, ?_, ?_, ?_, e5 h.ok, ?_, ?_, ?_, ?_, ?_, ?_⟩
      · intro u
        show s.slock = some u ↔ (upd s.pc t _ u).hasS = true
        by_cases hut : u = t
        · subst hut; rw [upd_same]; exact ⟨fun e => absurd e hsn, fun e => (nomatch e)⟩
        · rw [upd_other _ _ hut]; exact h.slock u
      · intro u
        show s.qlock = some u ↔ (upd s.pc t _ u).hasQ = true
        by_cases hut : u = t
        · subst hut; rw [upd_same, h.qlock u, hp]; exact Iff.rfl
        · rw [upd_other _ _ hut]; exact h.qlock u
      · rw [hf]; show enqueued tr = handled tr ++ _ ++ _; rw [e1, e2]; exact h.order
      · show ∀ id ∈ enqueued tr, _; rw [e1]; exact h.fresh
      · show (enqueued tr).Nodup; rw [e1]; exact h.nodup
      · intro u n l hu id hid
        by_cases hut : u = t
        · subst hut; simp only [upd_same] at hu; rcases hu with hu | ⟨_, hu⟩ <;> exact nomatch hu
        · simp only [upd_other _ _ hut] at hu
          have hid : id ∈ Logger.before u tr := hid
          rw [e3 u hut] at hid
          show id ∈ handled tr ∨ _
          rw [e2]; exact h.sync u n l hu id hid
      · intro u id hid
        have hid : id ∈ Logger.before u tr := hid
        show id ∈ enqueued tr
        rw [e1]
        by_cases hut : u = t
        · subst hut
          rcases e4 with e4 | e4 <;> rw [e4] at hid
          · exact h.before u id hid
          · exact hid
        · rw [e3 u hut] at hid; exact h.before u id hid
      · intro lv hl; exact (e6 (.loaded lv) (fun _ e => nomatch e)).2 (h.confR lv hl)
      · intro u m' n lv l hu
        by_cases hut : u = t
        · subst hut; simp only [upd_same] at hu; exact nomatch hu
        · simp only [upd_other _ _ hut] at hu; exact (e6 (.loaded lv) (fun _ e => nomatch e)).2 (h.confW u m' n lv l hu)
      · intro id l hd
        obtain ⟨lv, h1, h2⟩ := h.dropped id l ((e6 (.dropped id l) (fun _ e => nomatch e)).1 hd)
        exact ⟨lv, (e6 (.loaded lv) (fun _ e => nomatch e)).2 h1, by rw [e1]; exact h2⟩
      · intro u m' n l hu
        show n ≤ (enqueued tr).length
        rw [e1]
        by_cases hut : u = t
        · subst hut; simp only [upd_same] at hu; rcases hu with hu | ⟨_, hu⟩ <;> exact nomatch hu
        · simp only [upd_other _ _ hut] at hu; exact h.size u m' n l hu
      · intro x hx
        rw [hf] at hx
        exact (e6 (.enqueued _ _) (fun _ e => nomatch e)).2 (h.level x hx)
      · intro id l hd
        exact (e6 (.enqueued id l) (fun _ e => nomatch e)).2 (h.levelD id l ((e6 (.dropped id l) (fun _ e => nomatch e)).1 hd))
    · exact nomatch hs

theorem inv {s : Sys} (h : Reachable s) : Inv s := by
  induction h with
  | init levels =>
    refine ⟨fun t => ⟨fun e => (nomatch e), fun e => (nomatch e)⟩, fun t => ⟨fun e => (nomatch e), fun e => (nomatch e)⟩, rfl, fun _ h => (nomatch h), .nil, ?_,
      fun _ _ h => (nomatch h), trivial, ?_, fun _ _ _ _ _ h => (nomatch h), ?_, ?_, fun _ h => (nomatch h), ?_⟩
    · intro t n l h; rcases h with h | ⟨_, h⟩ <;> exact nomatch h
    · rintro lv rfl; exact List.mem_cons_self ..
    · intro id l hd; rcases List.mem_cons.1 hd with hd | hd <;> exact nomatch hd
    · intro u m n l h; rcases h with h | ⟨_, h⟩ <;> exact nomatch h
    · intro id l hd; rcases List.mem_cons.1 hd with hd | hd <;> exact nomatch hd
  | step a hr hs ih => exact inv_step ih hs

end Verif.Logger
