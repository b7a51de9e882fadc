import Verif.Spec.Pool
/-!
# Proofs about pools
-/
namespace Verif.Pool

theorem dropIdle_split (now idle : Nat) : ∀ l : List Entry, (dropIdle now idle l).2 ++ (dropIdle now idle l).1 = l
  | [] => rfl
  | e :: r => by
    unfold dropIdle; split
    · simp [dropIdle_split now idle r]
    · simp

theorem trim_split (size : Nat) : ∀ l : List Entry, (trim size l).2 ++ (trim size l).1 = l
  | [] => rfl
  | e :: r => by
    unfold trim; split
    · simp [trim_split size r]
    · simp

theorem trim_length {size : Nat} (hs : size ≠ 0) : ∀ l : List Entry, (trim size l).1.length + 1 ≤ size
  | [] => by simp [trim]; omega
  | e :: r => by
    unfold trim; split
    · exact trim_length hs r
    · simp_all

/-- Reversed, so the oldest is first. -/
theorem dropIdle_keep {now idle : Nat} : ∀ {l : List Entry}, l.Pairwise (fun a b => a.time ≤ b.time) → ∀ e ∈ (dropIdle now idle l).1, now - e.time ≤ idle
  | [], _ => by simp [dropIdle]
  | x :: r, h => by
    intro e he
    unfold dropIdle at he; split at he
    · exact dropIdle_keep (List.pairwise_cons.mp h).2 e he
    · rename_i hx
      rcases List.mem_cons.mp he with rfl | he
      · omega
      · have := (List.pairwise_cons.mp h).1 e he
        omega

theorem dropIdle_gone {now idle : Nat} : ∀ {l : List Entry}, ∀ e ∈ (dropIdle now idle l).2, now - e.time > idle
  | [] => by simp [dropIdle]
  | x :: r => by
    intro e he
    unfold dropIdle at he; split at he
    · rcases List.mem_cons.mp he with rfl | he
      · assumption
      · exact dropIdle_gone e he
    · cases he

theorem findMatch_some {conn : Nat → Conn} {uri : Bytes} {e : Entry} : ∀ {l : List Entry}, (findMatch conn uri l).1 = some e →
    (conn e.id).uri = uri ∧ ∃ a b, l = a ++ e :: b ∧ (findMatch conn uri l).2 = a ++ b
  | [], h => by simp [findMatch] at h
  | x :: r, h => by
    unfold findMatch at h ⊢; split at h
    · rename_i hx
      simp at h; subst h
      exact ⟨hx, [], r, rfl, by simp [hx]⟩
    · rename_i hx
      obtain ⟨h1, a, b, h2, h3⟩ := findMatch_some h
      exact ⟨h1, x :: a, b, by simp [h2], by simp only [hx, if_false]; simp only [h2] at h3 ⊢; simp [h3]⟩

theorem findMatch_none {conn : Nat → Conn} {uri : Bytes} : ∀ {l : List Entry}, (findMatch conn uri l).1 = none → (findMatch conn uri l).2 = l ∧ ∀ e ∈ l, (conn e.id).uri ≠ uri
  | [], _ => by simp [findMatch]
  | x :: r, h => by
    unfold findMatch at h ⊢; split at h
    · simp at h
    · rename_i hx
      obtain ⟨h1, h2⟩ := findMatch_none h
      simp [hx, h1]
      exact h2

/-! Traces -/

theorem place_cons (e : Ev) (t : List Ev) (id : Nat) : place (e :: t) id = match Ev.place id e with | some p => p | none => place t id := by
  unfold place
  rw [List.findSome?_cons]
  cases Ev.place id e <;> rfl

theorem place_closed (g : List Entry) (t : List Ev) (id : Nat) :
    place (g.map (fun e => Ev.closed e.id) ++ t) id = if id ∈ g.map (·.id) then .closed else place t id := by
  induction g with
  | nil => simp
  | cons e r ih =>
    simp only [List.map_cons, List.cons_append]
    rw [place_cons]
    simp only [Ev.place]
    by_cases he : e.id = id
    · simp [he]
    · have : ¬ id = e.id := fun h => he h.symm
      simp [he, ih, this]

theorem dirty_closed (g : List Entry) (t : List Ev) (id : Nat) : dirty (g.map (fun e => Ev.closed e.id) ++ t) id = dirty t id := by
  induction g with
  | nil => simp
  | cons e r ih => simpa [dirty] using ih

theorem sizes_closed (g : List Entry) (t : List Ev) : sizes (g.map (fun e => Ev.closed e.id) ++ t) = sizes t := by
  induction g with
  | nil => rfl
  | cons e r ih => simpa [sizes] using ih

/-- All that has happened was lawful. -/
def Hist : List Ev → Prop
  | [] => True
  | e :: t => Lawful t e ∧ Hist t

theorem Hist.at : ∀ {post pre : List Ev} {e : Ev}, Hist (post ++ e :: pre) → Lawful pre e
  | [], _, _, h => h.1
  | _ :: _, _, _, h => Hist.at h.2

theorem Hist.closed {t : List Ev} (ht : Hist t) : ∀ {g : List Entry}, (g.map (·.id)).Nodup → (∀ e ∈ g, place t e.id = .pool) → Hist (g.map (fun e => Ev.closed e.id) ++ t)
  | [], _, _ => ht
  | e :: r, hn, hp => by
    simp only [List.map_cons, List.nodup_cons] at hn
    refine ⟨Or.inl ?_, Hist.closed ht hn.2 fun x hx => hp x (.tail _ hx)⟩
    have : place (r.map (fun e => Ev.closed e.id) ++ t) e.id = if e.id ∈ r.map (·.id) then .closed else place t e.id := place_closed r t e.id
    rw [if_neg hn.1] at this
    refine Eq.trans this ?_
    exact hp e (.head _)

structure Inv (s : Sys) : Prop where
  own : ∀ h id, (h, id) ∈ s.owned ↔ place s.trace id = .with h
  pool : ∀ id, id ∈ s.pool.map (·.id) ↔ place s.trace id = .pool
  nodup : (s.pool.map (·.id)).Nodup
  next : ∀ id, place s.trace id = .nowhere ↔ s.next ≤ id
  fresh : ∀ id, s.next ≤ id → dirty s.trace id = false
  clear : ∀ id, (s.conn id).clear = true → dirty s.trace id = false
  poolClear : ∀ id, place s.trace id = .pool → (s.conn id).clear = true
  session : s.kind ≠ .redis → ∀ id, ((s.conn id).connected = false ∨ (s.conn id).clear = true) → (s.conn id).session = 0
  mongo : s.kind = .mongo → ∀ id, (s.conn id).session = 0
  uri : ∀ id, id < s.next → ∃ h pw, Ev.given h id (s.conn id).uri pw true ∈ s.trace
  sorted : s.pool.Pairwise fun a b => b.time ≤ a.time
  past : ∀ e ∈ s.pool, e.time ≤ s.now
  snapSize : ∀ h c, s.snap h = some c → c.size ∈ sizes s.trace
  confSize : s.conf.size ∈ sizes s.trace
  bound : ∃ n ∈ sizes s.trace, s.pool.length ≤ n
  hist : Hist s.trace

theorem inv_init (k : Kind) : Inv { kind := k } := by
  constructor <;> simp [place, dirty, sizes, Hist]

theorem dirty_cons_other {e : Ev} {t : List Ev} {id : Nat} (h1 : e ≠ .executed id) (h2 : e ≠ .reset id true) : dirty (e :: t) id = dirty t id := by
  unfold dirty
  rw [List.find?_cons_of_neg (by simp [h1, h2])]

theorem dirty_cons_executed {t : List Ev} {id : Nat} : dirty (.executed id :: t) id = true := by
  simp [dirty]

theorem dirty_cons_reset {t : List Ev} {id : Nat} : dirty (.reset id true :: t) id = false := by
  simp [dirty]

/-- Closing some of those in the pool. -/
theorem Inv.close {s : Sys} (hi : Inv s) {keep gone : List Entry} (hs : s.pool.Perm (keep ++ gone)) (hsub : keep.Sublist s.pool) :
    Inv { s with pool := keep, trace := gone.reverse.map (fun e => Ev.closed e.id) ++ s.trace } := by
  have hnd := hi.nodup
  have hsm : ∀ id, id ∈ s.pool.map (·.id) ↔ id ∈ keep.map (·.id) ∨ id ∈ gone.map (·.id) := fun id => by
    rw [(hs.map _).mem_iff, List.map_append, List.mem_append]
  rw [(hs.map _).nodup_iff, List.map_append, List.nodup_append] at hnd
  obtain ⟨hk, hg, hd⟩ := hnd
  have hgp : ∀ id ∈ gone.map (·.id), place s.trace id = .pool := fun id h => (hi.pool id).mp ((hsm id).mpr (Or.inr h))
  have hpl : ∀ id, place (gone.reverse.map (fun e => Ev.closed e.id) ++ s.trace) id = if id ∈ gone.map (·.id) then .closed else place s.trace id := by
    intro id
    rw [place_closed]
    simp
  constructor
  case own =>
    intro h id
    show _ ↔ place (_ ++ _) id = _
    rw [hi.own, hpl]
    split
    · rename_i hm
      rw [hgp id hm]; simp
    · rfl
  case pool =>
    intro id
    show id ∈ keep.map _ ↔ place (_ ++ _) id = _
    rw [hpl]
    have := hi.pool id
    rw [hsm] at this
    split
    · rename_i hm
      simp only [reduceCtorEq, iff_false]
      intro hkm
      exact hd _ hkm _ hm rfl
    · rename_i hm
      rw [← this]; simp [hm]
  case nodup => exact hk
  case next =>
    intro id
    show place (_ ++ _) id = _ ↔ _
    rw [hpl]
    split
    · rename_i hm
      have := hi.next id
      rw [hgp id hm] at this
      simpa using this
    · exact hi.next id
  case fresh => intro id h; show dirty (_ ++ _) id = _; rw [dirty_closed]; exact hi.fresh id h
  case clear => intro id h; show dirty (_ ++ _) id = _; rw [dirty_closed]; exact hi.clear id h
  case poolClear =>
    intro id h
    replace h : place (_ ++ _) id = _ := h
    rw [hpl] at h
    split at h
    · cases h
    · exact hi.poolClear id h
  case session => exact hi.session
  case mongo => exact hi.mongo
  case uri =>
    intro id h
    obtain ⟨x, pw, hx⟩ := hi.uri id h
    exact ⟨x, pw, List.mem_append.mpr (Or.inr hx)⟩
  case sorted => exact hi.sorted.sublist hsub
  case past => intro e he; exact hi.past e (hsub.mem he)
  case snapSize => intro h c hc; show _ ∈ sizes (_ ++ _); rw [sizes_closed]; exact hi.snapSize h c hc
  case confSize => show _ ∈ sizes (_ ++ _); rw [sizes_closed]; exact hi.confSize
  case bound =>
    obtain ⟨n, hn, hb⟩ := hi.bound
    refine ⟨n, ?_, ?_⟩
    · show _ ∈ sizes (_ ++ _); rw [sizes_closed]; exact hn
    · exact Nat.le_trans hsub.length_le hb
  case hist =>
    refine Hist.closed hi.hist ?_ ?_
    · rw [List.map_reverse]; exact List.pairwise_reverse.mpr (hg.imp fun h => h.symm)
    · intro e he
      exact hgp e.id (List.mem_map.mpr ⟨e, by simpa using he, rfl⟩)

/-- A connection in the pool is given to an owner. -/
theorem Inv.take {s : Sys} (hi : Inv s) {a b : List Entry} {e : Entry} (hs : s.pool = a ++ e :: b) (h : Nat) (pw : Bytes) :
    Inv { s with pool := a ++ b, owned := (h, e.id) :: s.owned, trace := .given h e.id (s.conn e.id).uri pw false :: s.trace } := by
  have hnd := hi.nodup
  rw [hs] at hnd
  simp only [List.map_append, List.map_cons] at hnd
  have hperm : (a.map (·.id) ++ e.id :: b.map (·.id)).Perm (e.id :: (a.map (·.id) ++ b.map (·.id))) := List.perm_middle
  have hnd2 := (hperm.nodup_iff.mp hnd)
  rw [List.nodup_cons] at hnd2
  have hep : place s.trace e.id = .pool := (hi.pool e.id).mp (by rw [hs]; simp)
  have hlt : e.id < s.next := by
    have := hi.next e.id
    rw [hep] at this
    simp at this
    exact this
  have hpl : ∀ id, place (.given h e.id (s.conn e.id).uri pw false :: s.trace) id = if e.id = id then .with h else place s.trace id := by
    intro id
    rw [place_cons]
    simp only [Ev.place]
    split <;> simp_all
  have hdr : ∀ id, dirty (.given h e.id (s.conn e.id).uri pw false :: s.trace) id = dirty s.trace id := fun id => dirty_cons_other (by simp) (by simp)
  constructor
  case own =>
    intro x id
    show (x, id) ∈ (_ :: _) ↔ place (_ :: _) id = _
    rw [hpl, List.mem_cons, hi.own]
    by_cases he : e.id = id
    · subst he; simp [hep, eq_comm]
    · have : ¬ id = e.id := fun h => he h.symm
      simp [he, this]
  case pool =>
    intro id
    show id ∈ (a ++ b).map _ ↔ place (_ :: _) id = _
    rw [hpl]
    have := hi.pool id
    rw [hs] at this
    split
    · rename_i he; subst he
      simp only [List.map_append, reduceCtorEq, iff_false]
      exact hnd2.1
    · rename_i he
      rw [← this]
      have : ¬ id = e.id := fun h => he h.symm
      simp [this]
  case nodup => show ((a ++ b).map _).Nodup; rw [List.map_append]; exact hnd2.2
  case next =>
    intro id
    show place (_ :: _) id = _ ↔ _
    rw [hpl]
    split
    · rename_i he; subst he
      have := hi.next e.id
      rw [hep] at this
      simpa using this
    · exact hi.next id
  case fresh => intro id hx; show dirty (_ :: _) id = _; rw [hdr]; exact hi.fresh id hx
  case clear => intro id hx; show dirty (_ :: _) id = _; rw [hdr]; exact hi.clear id hx
  case poolClear =>
    intro id hx
    replace hx : place (_ :: _) id = _ := hx
    rw [hpl] at hx
    split at hx
    · cases hx
    · exact hi.poolClear id hx
  case session => exact hi.session
  case mongo => exact hi.mongo
  case uri =>
    intro id hx
    obtain ⟨x, pw, hx⟩ := hi.uri id hx
    exact ⟨x, pw, .tail _ hx⟩
  case sorted =>
    have := hi.sorted
    rw [hs] at this
    exact this.sublist (List.Sublist.append_left (List.sublist_cons_self _ _) _)
  case past =>
    intro x hx
    refine hi.past x ?_
    rw [hs]
    rcases List.mem_append.mp hx with hx | hx <;> simp [hx]
  case snapSize => exact hi.snapSize
  case confSize => exact hi.confSize
  case bound =>
    obtain ⟨n, hn, hb⟩ := hi.bound
    refine ⟨n, hn, ?_⟩
    rw [hs] at hb
    simp at hb ⊢
    omega
  case hist =>
    exact ⟨⟨hep, hi.clear _ (hi.poolClear _ hep), hi.uri _ hlt⟩, hi.hist⟩

/-- A connection is created. -/
theorem Inv.create {s : Sys} (hi : Inv s) (h : Nat) (uri pw : Bytes) :
    Inv { s with owned := (h, s.next) :: s.owned, next := s.next + 1, conn := fun i => if i = s.next then { uri := uri, password := pw } else s.conn i,
                 trace := .given h s.next uri pw true :: s.trace } := by
  have hep : place s.trace s.next = .nowhere := (hi.next s.next).mpr (Nat.le_refl _)
  have hpl : ∀ id, place (.given h s.next uri pw true :: s.trace) id = if s.next = id then .with h else place s.trace id := by
    intro id
    rw [place_cons]
    simp only [Ev.place]
    split <;> simp_all
  have hdr : ∀ id, dirty (.given h s.next uri pw true :: s.trace) id = dirty s.trace id := fun id => dirty_cons_other (by simp) (by simp)
  constructor
  case own =>
    intro x id
    show (x, id) ∈ (_ :: _) ↔ place (_ :: _) id = _
    rw [hpl, List.mem_cons, hi.own]
    by_cases he : s.next = id
    · subst he; simp [hep, eq_comm]
    · have : ¬ id = s.next := fun h => he h.symm
      simp [he, this]
  case pool =>
    intro id
    show _ ↔ place (_ :: _) id = _
    rw [hpl, hi.pool]
    split
    · rename_i he; subst he; rw [hep]; simp
    · rfl
  case nodup => exact hi.nodup
  case next =>
    intro id
    show place (_ :: _) id = _ ↔ s.next + 1 ≤ id
    rw [hpl]
    split
    · rename_i he; subst he; simp
    · rw [hi.next]; omega
  case fresh => intro id hx; show dirty (_ :: _) id = _; rw [hdr]; exact hi.fresh id (Nat.le_of_succ_le hx)
  case clear =>
    intro id hx; show dirty (_ :: _) id = _; rw [hdr]
    by_cases he : id = s.next
    · exact hi.fresh id (by omega)
    · simp only [he, if_false] at hx; exact hi.clear id hx
  case poolClear =>
    intro id hx
    replace hx : place (_ :: _) id = _ := hx
    rw [hpl] at hx
    split at hx
    · cases hx
    · rename_i he
      have : ¬ id = s.next := fun h => he h.symm
      simp only [this, if_false]
      exact hi.poolClear id hx
  case session =>
    intro hk id
    by_cases he : id = s.next
    · simp [he]
    · simp only [he, if_false]; exact hi.session hk id
  case mongo =>
    intro hk id
    by_cases he : id = s.next
    · simp [he]
    · simp only [he, if_false]; exact hi.mongo hk id
  case uri =>
    intro id hx
    by_cases he : id = s.next
    · subst he; exact ⟨h, pw, by simp⟩
    · simp only [he, if_false]
      obtain ⟨x, p, hx⟩ := hi.uri id (by simp only at hx; omega)
      exact ⟨x, p, .tail _ hx⟩
  case sorted => exact hi.sorted
  case past => exact hi.past
  case snapSize => exact hi.snapSize
  case confSize => exact hi.confSize
  case bound => exact hi.bound
  case hist => exact ⟨hep, hi.hist⟩

/-- A connection is put in the pool. -/
theorem Inv.put {s : Sys} (hi : Inv s) {h id n : Nat} (ho : (h, id) ∈ s.owned) (hc : (s.conn id).clear = true) (hn : n ∈ sizes s.trace) (hl : s.pool.length + 1 ≤ n) :
    Inv { s with pool := { time := s.now, id := id } :: s.pool, owned := s.owned.filter (· ≠ (h, id)), trace := .pooled h id :: s.trace } := by
  have hep := (hi.own h id).mp ho
  have hpl : ∀ i, place (.pooled h id :: s.trace) i = if id = i then .pool else place s.trace i := by
    intro i
    rw [place_cons]
    simp only [Ev.place]
    split <;> simp_all
  have hdr : ∀ i, dirty (.pooled h id :: s.trace) i = dirty s.trace i := fun i => dirty_cons_other (by simp) (by simp)
  have hlt : id < s.next := by
    have := hi.next id
    rw [hep] at this
    simp at this
    exact this
  constructor
  case own =>
    intro x i
    show (x, i) ∈ List.filter _ _ ↔ place (_ :: _) i = _
    rw [hpl, List.mem_filter, hi.own]
    by_cases he : id = i
    · subst he; rw [hep]; simp; intro hx; exact hx.symm
    · have : ¬ i = id := fun h => he h.symm
      simp [he, this]
  case pool =>
    intro i
    show i ∈ (_ :: s.pool).map _ ↔ place (_ :: _) i = _
    rw [hpl, List.map_cons, List.mem_cons, hi.pool]
    by_cases he : id = i
    · simp [he]
    · have : ¬ i = id := fun h => he h.symm
      simp [he, this]
  case nodup =>
    show ((_ :: s.pool).map _).Nodup
    rw [List.map_cons, List.nodup_cons]
    refine ⟨?_, hi.nodup⟩
    intro hm
    rw [hi.pool] at hm
    rw [hep] at hm
    cases hm
  case next =>
    intro i
    show place (_ :: _) i = _ ↔ _
    rw [hpl]
    split
    · rename_i he; subst he; simp; exact hlt
    · exact hi.next i
  case fresh => intro i hx; show dirty (_ :: _) i = _; rw [hdr]; exact hi.fresh i hx
  case clear => intro i hx; show dirty (_ :: _) i = _; rw [hdr]; exact hi.clear i hx
  case poolClear =>
    intro i hx
    replace hx : place (_ :: _) i = _ := hx
    rw [hpl] at hx
    split at hx
    · rename_i he; subst he; exact hc
    · exact hi.poolClear i hx
  case session => exact hi.session
  case mongo => exact hi.mongo
  case uri =>
    intro i hx
    obtain ⟨x, pw, hx⟩ := hi.uri i hx
    exact ⟨x, pw, .tail _ hx⟩
  case sorted => exact List.pairwise_cons.mpr ⟨fun e he => hi.past e he, hi.sorted⟩
  case past =>
    intro e he
    rcases List.mem_cons.mp he with rfl | he
    · exact Nat.le_refl _
    · exact hi.past e he
  case snapSize => exact hi.snapSize
  case confSize => exact hi.confSize
  case bound => exact ⟨n, hn, hl⟩
  case hist => exact ⟨⟨hep, hi.clear id hc⟩, hi.hist⟩

/-- What a thread has read does not matter to the others. -/
theorem Inv.forget {s : Sys} (hi : Inv s) (h : Nat) : Inv { s with snap := fun t => if t = h then none else s.snap t } := by
  refine { hi with snapSize := ?_ }
  intro x c hx
  simp only at hx
  split at hx
  · cases hx
  · exact hi.snapSize x c hx

theorem inv_allocate {s : Sys} (hi : Inv s) (h idle : Nat) (uri pw : Bytes) : Inv (allocate s h idle uri pw) := by
  unfold allocate
  have hd := dropIdle_split s.now idle (findMatch s.conn uri s.pool).2.reverse
  have hd' : (findMatch s.conn uri s.pool).2 = (dropIdle s.now idle (findMatch s.conn uri s.pool).2.reverse).1.reverse ++ (dropIdle s.now idle (findMatch s.conn uri s.pool).2.reverse).2.reverse := by
    rw [← List.reverse_append, hd, List.reverse_reverse]
  cases hf : (findMatch s.conn uri s.pool).1 with
  | some e =>
    obtain ⟨hu, a, b, hab, hr⟩ := findMatch_some hf
    rw [hr] at hd'
    rw [hr] at hd
    have key : ∃ a' b', s.pool.Perm ((a' ++ e :: b') ++ (dropIdle s.now idle (a ++ b).reverse).2.reverse) ∧ (a' ++ e :: b').Sublist s.pool ∧
        a' ++ b' = (dropIdle s.now idle (a ++ b).reverse).1.reverse := by
      revert hd'
      generalize (dropIdle s.now idle (a ++ b).reverse).1.reverse = K
      generalize (dropIdle s.now idle (a ++ b).reverse).2.reverse = G
      intro hd'
      rcases List.append_eq_append_iff.mp hd' with ⟨x, h1, h2⟩ | ⟨x, h1, h2⟩
      · exact ⟨a, x, by rw [hab, h2]; simp, by rw [hab, h2]; simp, h1.symm⟩
      · refine ⟨K, [], ?_, ?_, by simp⟩
        · rw [hab, h2, h1]
          simp only [List.append_assoc, List.cons_append, List.nil_append]
          exact List.Perm.append_left K List.perm_middle
        · rw [hab, h1]
          simp only [List.append_assoc]
          refine List.Sublist.append_left ?_ K
          exact List.Sublist.trans (by simp) (List.sublist_append_right x _)
    obtain ⟨a', b', hp, hsb, hk⟩ := key
    have h1 := ((hi.close hp hsb).take rfl h pw).forget h
    rw [← hu]
    rw [← hu] at hf hr
    simpa [hf, hr, hk] using h1
  | none =>
    obtain ⟨hr, _⟩ := findMatch_none hf
    have hsub : (dropIdle s.now idle (findMatch s.conn uri s.pool).2.reverse).1.reverse.Sublist s.pool := by
      have := List.sublist_append_left (dropIdle s.now idle (findMatch s.conn uri s.pool).2.reverse).1.reverse (dropIdle s.now idle (findMatch s.conn uri s.pool).2.reverse).2.reverse
      rw [← hd', hr] at this
      rw [hr]
      exact this
    have h1 := ((hi.close (.of_eq (hr.symm.trans hd')) hsub).create h uri pw).forget h
    simpa [hf] using h1

theorem inv_giveBack {s : Sys} (hi : Inv s) {h id : Nat} {c : Conf} (ho : (h, id) ∈ s.owned) (hc : s.snap h = some c) : Inv (giveBack s h id c) := by
  have href : Inv { s with snap := fun t => if t = h then none else s.snap t, trace := .refused h id :: s.trace } := by
    have hi' := hi.forget h
    exact { hi' with hist := ⟨(hi.own h id).mp ho, hi.hist⟩, uri := fun i hx => let ⟨x, p, hx⟩ := hi.uri i hx; ⟨x, p, .tail _ hx⟩ }
  unfold giveBack
  simp only
  split
  · exact href
  · split
    · exact href
    · rename_i hcl hsz
      have h1 := dropIdle_split s.now c.idle s.pool.reverse
      have h2 := trim_split c.size (dropIdle s.now c.idle s.pool.reverse).1
      have h3 := trim_length hsz (dropIdle s.now c.idle s.pool.reverse).1
      revert h1 h2 h3
      generalize (dropIdle s.now c.idle s.pool.reverse).2 = G1
      generalize (dropIdle s.now c.idle s.pool.reverse).1 = K1
      generalize (trim c.size K1).2 = G2
      generalize (trim c.size K1).1 = K2
      intro h1 h2 h3
      have hs : s.pool = K2.reverse ++ (G1 ++ G2).reverse := by
        rw [← List.reverse_append, List.append_assoc, h2, h1, List.reverse_reverse]
      have hcl' : (s.conn id).clear = true := by simpa using hcl
      have := (hi.close (.of_eq hs) (by conv => rhs; rw [hs]
                                        exact List.sublist_append_left _ _))
      have := (this.put (h := h) (id := id) (n := c.size) ho hcl' (by show _ ∈ sizes (_ ++ _); rw [sizes_closed]; exact hi.snapSize h c hc) (by simpa using h3)).forget h
      simpa using this

/-- An owner does something with their connection. -/
theorem Inv.use {s : Sys} (hi : Inv s) {h id : Nat} (ho : (h, id) ∈ s.owned) {c : Conn} {t : List Ev} (hu : c.uri = (s.conn id).uri)
    (ht : t = s.trace ∨ (t = .executed id :: s.trace ∧ c.clear = false) ∨ t = .reset id c.clear :: s.trace)
    (hcl : t = s.trace → c.clear = true → (s.conn id).clear = true)
    (hs : s.kind ≠ .redis → (c.connected = false ∨ c.clear = true) → c.session = 0)
    (hm : s.kind = .mongo → c.session = 0) : Inv { s with conn := update s id c, trace := t } := by
  have hep := (hi.own h id).mp ho
  have hlt : id < s.next := by
    have := hi.next id
    rw [hep] at this
    simp at this
    exact this
  have hpl : ∀ i, place t i = place s.trace i := by
    intro i
    rcases ht with rfl | ⟨rfl, _⟩ | rfl
    · rfl
    · rw [place_cons]; rfl
    · rw [place_cons]; rfl
  have hsz : sizes t = sizes s.trace := by rcases ht with rfl | ⟨rfl, _⟩ | rfl <;> rfl
  have hdr : ∀ i, i ≠ id → dirty t i = dirty s.trace i := by
    intro i hne
    have hne' : ¬ id = i := fun h => hne h.symm
    rcases ht with rfl | ⟨rfl, _⟩ | rfl
    · rfl
    · exact dirty_cons_other (by simp [hne']) (by simp)
    · exact dirty_cons_other (by simp) (by simp [hne'])
  have hup : ∀ i, i ≠ id → update s id c i = s.conn i := by intro i hne; simp [update, hne]
  have hid : update s id c id = c := by simp [update]
  constructor
  case own => intro x i; show _ ↔ place t i = _; rw [hpl]; exact hi.own x i
  case pool => intro i; show _ ↔ place t i = _; rw [hpl]; exact hi.pool i
  case nodup => exact hi.nodup
  case next => intro i; show place t i = _ ↔ _; rw [hpl]; exact hi.next i
  case fresh => intro i hx; show dirty t i = _; rw [hdr i (by simp only at hx; omega)]; exact hi.fresh i hx
  case clear =>
    intro i hx
    replace hx : (update s id c i).clear = true := hx
    show dirty t i = _
    by_cases he : i = id
    · subst he
      rw [hid] at hx
      rcases ht with rfl | ⟨rfl, h2⟩ | rfl
      · exact hi.clear i (hcl rfl hx)
      · rw [hx] at h2; cases h2
      · rw [hx]; exact dirty_cons_reset
    · rw [hdr i he]; rw [hup i he] at hx; exact hi.clear i hx
  case poolClear =>
    intro i hx
    replace hx : place t i = _ := hx
    rw [hpl] at hx
    show (update s id c i).clear = true
    by_cases he : i = id
    · subst he; rw [hep] at hx; cases hx
    · rw [hup i he]; exact hi.poolClear i hx
  case session =>
    intro hk i
    show ((update s id c i).connected = false ∨ (update s id c i).clear = true) → (update s id c i).session = 0
    by_cases he : i = id
    · subst he; rw [hid]; exact hs hk
    · rw [hup i he]; exact hi.session hk i
  case mongo =>
    intro hk i
    show (update s id c i).session = 0
    by_cases he : i = id
    · subst he; rw [hid]; exact hm hk
    · rw [hup i he]; exact hi.mongo hk i
  case uri =>
    intro i hx
    show ∃ x p, Ev.given x i (update s id c i).uri p true ∈ t
    have hu' : (update s id c i).uri = (s.conn i).uri := by
      by_cases he : i = id
      · subst he; rw [hid, hu]
      · rw [hup i he]
    rw [hu']
    obtain ⟨x, p, hx'⟩ := hi.uri i hx
    refine ⟨x, p, ?_⟩
    rcases ht with rfl | ⟨rfl, _⟩ | rfl
    · exact hx'
    · exact .tail _ hx'
    · exact .tail _ hx'
  case sorted => exact hi.sorted
  case past => exact hi.past
  case snapSize => intro x c' hx; show _ ∈ sizes t; rw [hsz]; exact hi.snapSize x c' hx
  case confSize => show _ ∈ sizes t; rw [hsz]; exact hi.confSize
  case bound => obtain ⟨n, hn, hb⟩ := hi.bound; exact ⟨n, by show _ ∈ sizes t; rw [hsz]; exact hn, hb⟩
  case hist =>
    show Hist t
    rcases ht with rfl | ⟨rfl, _⟩ | rfl
    · exact hi.hist
    · exact ⟨⟨h, hep⟩, hi.hist⟩
    · exact ⟨⟨h, hep⟩, hi.hist⟩

/-- An owner gives their connection to another, or closes it. -/
theorem Inv.leave {s : Sys} (hi : Inv s) {h id : Nat} (ho : (h, id) ∈ s.owned) {o : List (Nat × Nat)} {e : Ev}
    (he : (∃ h', e = .moved h h' id ∧ o = (h', id) :: s.owned.filter (· ≠ (h, id))) ∨ (e = .closed id ∧ o = s.owned.filter (· ≠ (h, id)))) :
    Inv { s with owned := o, trace := e :: s.trace } := by
  have hep := (hi.own h id).mp ho
  have hlt : id < s.next := by
    have := hi.next id
    rw [hep] at this
    simp at this
    exact this
  have hpl : ∀ i, i ≠ id → place (e :: s.trace) i = place s.trace i := by
    intro i hne
    have hne' : ¬ id = i := fun h => hne h.symm
    rw [place_cons]
    rcases he with ⟨h', rfl, _⟩ | ⟨rfl, _⟩ <;> simp [Ev.place, hne']
  have hpi : place (e :: s.trace) id ≠ .nowhere ∧ place (e :: s.trace) id ≠ .pool := by
    rw [place_cons]
    rcases he with ⟨h', rfl, _⟩ | ⟨rfl, _⟩ <;> simp [Ev.place]
  have hdr : ∀ i, dirty (e :: s.trace) i = dirty s.trace i := by
    intro i
    rcases he with ⟨h', rfl, _⟩ | ⟨rfl, _⟩ <;> exact dirty_cons_other (by simp) (by simp)
  have hsz : sizes (e :: s.trace) = sizes s.trace := by rcases he with ⟨h', rfl, _⟩ | ⟨rfl, _⟩ <;> rfl
  constructor
  case own =>
    intro x i
    show (x, i) ∈ o ↔ place (e :: s.trace) i = _
    have h0 := hi.own x i
    by_cases hii : i = id
    · subst hii
      rw [hep] at h0
      rw [place_cons]
      rcases he with ⟨h', rfl, rfl⟩ | ⟨rfl, rfl⟩
      · have h1 : ¬ ((x, i) ∈ s.owned ∧ ¬ (x, i) = (h, i)) := fun ⟨hm, hn⟩ => hn (by rw [Place.with.inj (h0.mp hm)])
        simp only [Ev.place, List.mem_cons, List.mem_filter, decide_eq_true_eq, ne_eq, h1, or_false, if_true, Place.with.injEq]
        simp only [Prod.mk.injEq, and_true]
        exact eq_comm
      · have h1 : ¬ ((x, i) ∈ s.owned ∧ ¬ (x, i) = (h, i)) := fun ⟨hm, hn⟩ => hn (by rw [Place.with.inj (h0.mp hm)])
        simp only [Ev.place, List.mem_filter, decide_eq_true_eq, ne_eq, h1, if_true, reduceCtorEq]
    · rw [hpl i hii, ← h0]
      rcases he with ⟨h', rfl, rfl⟩ | ⟨rfl, rfl⟩ <;> simp [hii]
  case pool =>
    intro i
    show _ ↔ place (e :: s.trace) i = _
    by_cases hii : i = id
    · subst hii
      rw [hi.pool, hep]; simp [hpi.2]
    · rw [hpl i hii]; exact hi.pool i
  case nodup => exact hi.nodup
  case next =>
    intro i
    show place (e :: s.trace) i = _ ↔ _
    by_cases hii : i = id
    · subst hii
      simp [hpi.1]; exact hlt
    · rw [hpl i hii]; exact hi.next i
  case fresh => intro i hx; show dirty (e :: s.trace) i = _; rw [hdr]; exact hi.fresh i hx
  case clear => intro i hx; show dirty (e :: s.trace) i = _; rw [hdr]; exact hi.clear i hx
  case poolClear =>
    intro i hx
    replace hx : place (e :: s.trace) i = _ := hx
    by_cases hii : i = id
    · subst hii; exact absurd hx hpi.2
    · rw [hpl i hii] at hx; exact hi.poolClear i hx
  case session => exact hi.session
  case mongo => exact hi.mongo
  case uri => intro i hx; obtain ⟨x, p, hx⟩ := hi.uri i hx; exact ⟨x, p, .tail _ hx⟩
  case sorted => exact hi.sorted
  case past => exact hi.past
  case snapSize => intro x c' hx; show _ ∈ sizes (e :: s.trace); rw [hsz]; exact hi.snapSize x c' hx
  case confSize => show _ ∈ sizes (e :: s.trace); rw [hsz]; exact hi.confSize
  case bound => obtain ⟨n, hn, hb⟩ := hi.bound; exact ⟨n, by show _ ∈ sizes (e :: s.trace); rw [hsz]; exact hn, hb⟩
  case hist =>
    refine ⟨?_, hi.hist⟩
    rcases he with ⟨h', rfl, _⟩ | ⟨rfl, _⟩
    · exact hep
    · exact Or.inr ⟨h, hep⟩

theorem inv_step {s s' : Sys} {a : Act} (hi : Inv s) (hs : step s a = some s') : Inv s' := by
  cases a with
  | reload c =>
    simp only [step, Option.some.injEq] at hs; subst hs
    have hpl : ∀ id, place (.reload c.size :: s.trace) id = place s.trace id := fun id => by rw [place_cons]; rfl
    have hdr : ∀ id, dirty (.reload c.size :: s.trace) id = dirty s.trace id := fun id => dirty_cons_other (by simp) (by simp)
    constructor
    case own => intro h id; show _ ↔ place (_ :: _) _ = _; rw [hpl]; exact hi.own h id
    case pool => intro id; show _ ↔ place (_ :: _) _ = _; rw [hpl]; exact hi.pool id
    case nodup => exact hi.nodup
    case next => intro id; show place (_ :: _) _ = _ ↔ _; rw [hpl]; exact hi.next id
    case fresh => intro id h; show dirty (_ :: _) _ = _; rw [hdr]; exact hi.fresh id h
    case clear => intro id h; show dirty (_ :: _) _ = _; rw [hdr]; exact hi.clear id h
    case poolClear => intro id h; exact hi.poolClear id ((hpl id).symm.trans h)
    case session => exact hi.session
    case mongo => exact hi.mongo
    case uri => intro i hx; obtain ⟨x, p, hx⟩ := hi.uri i hx; exact ⟨x, p, .tail _ hx⟩
    case sorted => exact hi.sorted
    case past => exact hi.past
    case snapSize => intro h c' hc; exact .tail _ (hi.snapSize h c' hc)
    case confSize => exact .head _
    case bound => obtain ⟨n, hn, hb⟩ := hi.bound; exact ⟨n, .tail _ hn, hb⟩
    case hist => exact ⟨trivial, hi.hist⟩
  | tick n =>
    simp only [step, Option.some.injEq] at hs; subst hs
    exact { hi with past := fun e he => Nat.le_trans (hi.past e he) (Nat.le_add_right _ _) }
  | read h =>
    simp only [step, Option.some.injEq] at hs; subst hs
    refine { hi with snapSize := ?_ }
    intro x c hx
    simp only at hx
    split at hx
    · cases hx; exact hi.confSize
    · exact hi.snapSize x c hx
  | allocate h uri pw =>
    simp only [step, Option.map_eq_some_iff] at hs
    obtain ⟨c, _, rfl⟩ := hs
    exact inv_allocate hi _ _ _ _
  | allocateDefault h =>
    simp only [step, Option.map_eq_some_iff] at hs
    obtain ⟨c, _, rfl⟩ := hs
    exact inv_allocate hi _ _ _ _
  | allocateSecondary h =>
    simp only [step] at hs; split at hs
    · simp only [Option.map_eq_some_iff] at hs
      obtain ⟨c, _, rfl⟩ := hs
      exact inv_allocate hi _ _ _ _
    · cases hs
  | allocateTertiary h =>
    simp only [step] at hs; split at hs
    · simp only [Option.map_eq_some_iff] at hs
      obtain ⟨c, _, rfl⟩ := hs
      exact inv_allocate hi _ _ _ _
    · cases hs
  | giveBack h id =>
    simp only [step] at hs; split at hs
    · rename_i ho
      simp only [Option.map_eq_some_iff] at hs
      obtain ⟨c, hc, rfl⟩ := hs
      exact inv_giveBack hi ho hc
    · cases hs
  | move h h' id =>
    simp only [step] at hs; split at hs
    · rename_i ho
      simp only [Option.some.injEq] at hs; subst hs
      exact hi.leave ho (Or.inl ⟨h', rfl, rfl⟩)
    · cases hs
  | connect h id =>
    simp only [step] at hs; split at hs
    · rename_i ho
      simp only [Option.some.injEq] at hs; subst hs
      refine hi.use (t := s.trace) ho rfl (Or.inl rfl) (fun _ h => h) ?_ (fun hk => hi.mongo hk id)
      rintro hk (h | h)
      · cases h
      · exact hi.session hk id (Or.inr h)
    · cases hs
  | execute h id session err =>
    simp only [step] at hs; split at hs
    · rename_i ho
      simp only [Option.some.injEq] at hs; subst hs
      have hcl : (executeConn s.kind session err (s.conn id)).clear = false := by cases s.kind <;> rfl
      refine hi.use ho (by cases s.kind <;> rfl) (Or.inr (Or.inl ⟨rfl, hcl⟩)) (fun _ h => by rw [hcl] at h; cases h) ?_ ?_
      · rintro hk (h | h)
        · cases hkk : s.kind <;> rw [hkk] at h hk
          · exact absurd rfl hk
          · simp [executeConn] at h
          · exact hi.mongo hkk id
        · rw [hcl] at h; cases h
      · intro hk; rw [hk]; exact hi.mongo hk id
    · cases hs
  | reset h id ok =>
    simp only [step] at hs; split at hs
    · rename_i ho
      simp only [Option.some.injEq] at hs; subst hs
      refine hi.use ho (by cases s.kind <;> rfl) (Or.inr (Or.inr rfl)) (fun h => by simp at h) ?_ ?_
      · intro hk h
        have h0 := hi.session hk id
        cases hkk : s.kind <;> rw [hkk] at h hk
        · exact absurd rfl hk
        · simp only [resetConn] at h ⊢
          cases hc : (s.conn id).connected <;> cases ok <;> simp_all
        · exact hi.mongo hkk id
      · intro hk; rw [hk]; exact hi.mongo hk id
    · cases hs
  | destroy h id =>
    simp only [step] at hs; split at hs
    · rename_i ho
      simp only [Option.some.injEq] at hs; subst hs
      exact hi.leave ho (Or.inr ⟨rfl, rfl⟩)
    · cases hs

theorem inv {s : Sys} (h : Reachable s) : Inv s := by
  induction h with
  | init k => exact inv_init k
  | step _ hs ih => exact inv_step ih hs

end Verif.Pool
