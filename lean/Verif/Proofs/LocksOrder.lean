import Verif.Proofs.Locks
/-!
# Every thread locks mutexes in order
-/
namespace Verif.Locks
open Op Lock Spec.Locks

/-! ### Threads other than the network thread -/

theorem disc_acq {ok H l r} (h : ok H l) (h' : Disc ok (l :: H) r) : Disc ok H (acq l :: r) := ⟨h, h'⟩

/-- The mutex locked last is unlocked. -/
theorem disc_rel {ok H l r} (h : Disc ok H r) : Disc ok (l :: H) (rel l :: r) := by
  refine ⟨by simp, ?_⟩
  rw [List.erase_cons_head]
  exact h

theorem logs_disc {H r} (hH : ∀ h ∈ H, h.priv = true ∨ h.rank < 6) (h : Disc okW H r) : ∀ n, Disc okW H (logs n ++ r)
  | 0 => h
  | n + 1 => by
    refine disc_acq ?_ (disc_rel (logs_disc hH h n))
    unfold okW
    rw [if_neg (by simp [Lock.priv])]
    intro x hx
    rcases hH x hx with h | h
    · exact .inl h
    · exact .inr ⟨h, fun s e => by cases e⟩

/-- Code of the user runs with these locked. -/
def Base (H : List Lock) : Prop := ∀ h ∈ H, h.priv = true ∨ ∃ j, h = .future j

theorem base_ok {H l} (hH : Base H) (hp : l.priv = false) (hf : 1 < l.rank) : okW H l := by
  unfold okW
  rw [if_neg (by simp [hp])]
  intro h hh
  rcases hH h hh with h | ⟨j, rfl⟩
  · exact .inl h
  · exact .inr ⟨hf, fun s _ => .inr ⟨j, rfl⟩⟩

theorem cons_ok {H l m} (hH : okW H l) (hp : l.priv = false) (hm : m.rank < l.rank) (hs : ∀ s, l = .sock s → m = .deflate s) :
    okW (m :: H) l := by
  unfold okW at hH ⊢
  rw [if_neg (by simp [hp])] at hH ⊢
  intro h hh
  rcases List.mem_cons.1 hh with rfl | hh
  · exact .inr ⟨hm, fun s e => .inl (hs s e)⟩
  · exact hH h hh

theorem base_logs {H r m} (hH : Base H) (hm : m.rank < 6) (h : Disc okW (m :: H) r) (n : Nat) : Disc okW (m :: H) (logs n ++ r) := by
  refine logs_disc (fun x hx => ?_) h n
  rcases List.mem_cons.1 hx with rfl | hx
  · exact .inr hm
  · rcases hH x hx with h | ⟨j, rfl⟩
    · exact .inl h
    · exact .inr (by simp [Lock.rank])

theorem base_logs0 {H r} (hH : Base H) (h : Disc okW H r) (n : Nat) : Disc okW H (logs n ++ r) := by
  refine logs_disc (fun x hx => ?_) h n
  rcases hH x hx with h | ⟨j, rfl⟩
  · exact .inl h
  · exact .inr (by simp [Lock.rank])

theorem call_disc {H r} (hH : Base H) (h : Disc okW H r) (c : Call) : Disc okW H (c.ops ++ r) := by
  have one : ∀ l : Lock, l.priv = false → 1 < l.rank → Disc okW H (acq l :: rel l :: r) := fun l hp hf =>
    disc_acq (base_ok hH hp hf) (disc_rel h)
  have io : Disc okW H (acq logIo :: acq logConf :: rel logConf :: rel logIo :: r) :=
    disc_acq (base_ok hH rfl (by decide)) (disc_acq (cons_ok (base_ok hH rfl (by decide)) rfl (by decide) (fun s e => by cases e))
      (disc_rel (disc_rel h)))
  cases c with
  | log => exact base_logs0 hH h 1
  | synchronize p =>
    cases p with
    | false =>
      exact disc_acq (base_ok hH rfl (by decide)) (disc_acq (cons_ok (base_ok hH rfl (by decide)) rfl (by decide) (fun s e => by cases e))
        (disc_rel (disc_rel h)))
    | true =>
      refine disc_acq (base_ok hH rfl (by decide)) (disc_acq (cons_ok (base_ok hH rfl (by decide)) rfl (by decide) (fun s e => by cases e)) ?_)
      refine ⟨by simp, ?_⟩
      rw [show (logIo :: logQueue :: H).erase logQueue = logIo :: H by simp]
      exact disc_acq (cons_ok (base_ok hH rfl (by decide)) rfl (by decide) (fun s e => by cases e)) (disc_rel (disc_rel h))
  | reloadLogger => exact io
  | send s n =>
    simp only [Call.ops, List.cons_append, List.append_assoc]
    exact disc_acq (base_ok hH rfl (by simp [Lock.rank])) (base_logs hH (by simp [Lock.rank]) (disc_rel h) n)
  | sendCompressed s n f =>
    cases f with
    | false =>
      simp only [Call.ops, List.cons_append, List.append_assoc]
      refine disc_acq (base_ok hH rfl (by simp [Lock.rank])) (disc_acq (cons_ok (base_ok hH rfl (by simp [Lock.rank])) rfl (by simp [Lock.rank])
        (fun s e => by cases e; rfl)) (logs_disc (fun x hx => ?_) (disc_rel (disc_rel h)) n))
      rcases List.mem_cons.1 hx with rfl | hx
      · exact .inr (by simp [Lock.rank])
      · rcases List.mem_cons.1 hx with rfl | hx
        · exact .inr (by simp [Lock.rank])
        · rcases hH x hx with h | ⟨j, rfl⟩
          · exact .inl h
          · exact .inr (by simp [Lock.rank])
    | true =>
      simp only [Call.ops, List.cons_append, List.append_assoc]
      refine disc_acq (base_ok hH rfl (by simp [Lock.rank])) (base_logs hH (by simp [Lock.rank]) (disc_rel ?_) 1)
      exact disc_acq (base_ok hH rfl (by simp [Lock.rank])) (base_logs hH (by simp [Lock.rank]) (disc_rel h) n)
  | inflate s => exact one _ rfl (by simp [Lock.rank])
  | insertSocket n =>
    simp only [Call.ops, List.cons_append, List.append_assoc]
    exact disc_acq (base_ok hH rfl (by simp [Lock.rank])) (base_logs hH (by simp [Lock.rank]) (disc_rel h) n)
  | network => exact one _ rfl (by simp [Lock.rank])
  | launchTask => exact one _ rfl (by simp [Lock.rank])
  | insertTimer => exact one _ rfl (by simp [Lock.rank])
  | launchFiber => exact one _ rfl (by simp [Lock.rank])
  | reloadFibers => exact one _ rfl (by simp [Lock.rank])
  | connect t =>
    exact disc_acq (base_ok hH rfl (by simp [Lock.rank])) (disc_acq (cons_ok (base_ok hH rfl (by simp [Lock.rank])) rfl (by simp [Lock.rank])
      (fun s e => by cases e)) (disc_rel (disc_rel h)))
  | push t l n =>
    cases l with
    | false =>
      simp only [Call.ops, List.cons_append, List.append_assoc]
      exact disc_acq (base_ok hH rfl (by simp [Lock.rank])) (base_logs hH (by simp [Lock.rank]) (disc_rel h) n)
    | true =>
      simp only [Call.ops, List.cons_append, List.append_assoc]
      exact disc_acq (base_ok hH rfl (by simp [Lock.rank])) (disc_acq (cons_ok (base_ok hH rfl (by simp [Lock.rank])) rfl
        (by simp [Lock.rank]) (fun s e => by cases e)) (disc_rel (base_logs hH (by simp [Lock.rank]) (disc_rel h) n)))
  | table t => exact one _ rfl (by simp [Lock.rank])
  | allocate k =>
    exact disc_acq (base_ok hH rfl (by simp [Lock.rank])) (disc_rel (one _ rfl (by simp [Lock.rank])))
  | pool k off n =>
    cases off with
    | true =>
      simp only [Call.ops, List.cons_append]
      exact disc_acq (base_ok hH rfl (by simp [Lock.rank])) (disc_rel (base_logs0 hH h n))
    | false =>
      simp only [Call.ops, List.append_assoc]
      exact base_logs0 hH (disc_acq (base_ok hH rfl (by simp [Lock.rank])) (disc_rel (one _ rfl (by simp [Lock.rank])))) n
  | reloadConnector k => exact one _ rfl (by simp [Lock.rank])
  | mainConfig => exact one _ rfl (by simp [Lock.rank])
  | uuid => exact one _ rfl (by simp [Lock.rank])

theorem body_disc {H r} (hH : Base H) (h : Disc okW H r) : ∀ cs, Disc okW H (body cs ++ r)
  | [] => h
  | c :: cs => by
    simp only [body, List.flatMap_cons, List.append_assoc]
    exact call_disc hH (body_disc hH h cs) c

theorem item_disc {H r} (hH : ∀ h ∈ H, h.priv = true) (h : Disc okW H r) (i : Item) : Disc okW H (i.ops ++ r) := by
  have hB : Base H := fun x hx => .inl (hH x hx)
  have ok : ∀ f, okW H (.future f) := by
    intro f
    unfold okW
    rw [if_neg (by simp [Lock.priv])]
    exact fun x hx => .inl (hH x hx)
  cases i with
  | call c => exact call_disc hB h c
  | await f => exact disc_acq (ok f) (disc_rel h)
  | inited f => exact disc_acq (ok f) (disc_rel h)
  | init f cs =>
    have hF : Base (.future f :: H) := by
      intro x hx
      rcases List.mem_cons.1 hx with rfl | hx
      · exact .inr ⟨f, rfl⟩
      · exact hB x hx
    simp only [Item.ops, List.cons_append, List.append_assoc]
    exact disc_acq (ok f) (base_logs0 hF (body_disc hF (base_logs0 hF (disc_rel h) 1) cs) 1)

theorem items_disc {H r} (hH : ∀ h ∈ H, h.priv = true) (h : Disc okW H r) : ∀ is, Disc okW H (items is ++ r)
  | [] => h
  | i :: is => by
    simp only [items, List.flatMap_cons, List.append_assoc]
    exact item_disc hH (items_disc hH h is) i

theorem flat_disc {α : Type} {f : α → List Op} {ok H} (hf : ∀ x r, Disc ok H r → Disc ok H (f x ++ r)) {r} (h : Disc ok H r) :
    ∀ xs : List α, Disc ok H (xs.flatMap f ++ r)
  | [] => h
  | x :: xs => by
    simp only [List.flatMap_cons, List.append_assoc]
    exact hf x _ (flat_disc hf h xs)

/-- A queue is locked and then the mutex of what has been taken from it. -/
theorem taken_disc {q p : Lock} {r} (hq : q.priv = false) (hp : p.priv = true) (hne : q ≠ p) (h : Disc okW [p] r) :
    Disc okW [] (acq q :: acq p :: rel q :: r) := by
  refine disc_acq (by unfold okW; rw [if_neg (by simp [hq])]; simp) (disc_acq (by unfold okW; rw [if_pos hp]; simpa using Ne.symm hne) ?_)
  refine ⟨by simp, ?_⟩
  rw [show [p, q].erase q = [p] by
    rw [List.erase_cons_tail (by simpa using Ne.symm hne)]
    simp]
  exact h

theorem nil_ok {l : Lock} (h : l.priv = false) : okW [] l := by
  unfold okW
  rw [if_neg (by simp [h])]
  simp

theorem task_disc {i x r} (h : Disc okW [] r) : Disc okW [] (taskRun i x ++ r) := by
  cases x with
  | none => exact disc_acq (nil_ok rfl) (disc_rel h)
  | some is =>
    simp only [taskRun, List.cons_append, List.append_assoc]
    exact taken_disc rfl rfl (by simp) (base_logs0 (by simp [Base, Lock.priv]) (items_disc (by simp [Lock.priv]) (disc_rel h) is) 1)

theorem timer_disc {i x r} (h : Disc okW [] r) : Disc okW [] (timerRun i x ++ r) := by
  cases x with
  | none => exact disc_acq (nil_ok rfl) (disc_rel h)
  | some is =>
    simp only [timerRun, List.cons_append, List.append_assoc]
    exact taken_disc rfl rfl (by simp) (base_logs0 (by simp [Base, Lock.priv]) (items_disc (by simp [Lock.priv]) (disc_rel h) is) 1)

theorem main_disc {x : MainRun} {r} (h : Disc okW [] r) : Disc okW [] (x.ops ++ r) := by
  cases x with
  | idle n =>
    simp only [MainRun.ops, List.cons_append, List.append_assoc]
    exact disc_acq (nil_ok rfl) (disc_rel (disc_acq (nil_ok rfl) (base_logs (by simp [Base]) (by simp [Lock.rank]) (disc_rel h) n)))
  | fiber n f is =>
    simp only [MainRun.ops, List.cons_append, List.append_assoc]
    exact disc_acq (nil_ok rfl) (disc_rel (taken_disc rfl rfl (by simp) (base_logs0 (by simp [Base, Lock.priv])
      (items_disc (by simp [Lock.priv]) (disc_rel h) is) n)))
  | other is => exact items_disc (by simp) h is

theorem logger_disc {r} (h : Disc okW [] r) : Disc okW [] (loggerRun ++ r) :=
  call_disc (c := .synchronize true) (by simp [Base]) h

/-! ### The network thread -/
section
variable {Z : Nat → Prop}

theorem netlogs_disc {H r} {s : Nat} (hH : ∀ h ∈ H, h.rank < 6) (h : Disc (okN Z) H r) : ∀ n, Disc (okN Z) H (logs n ++ r)
  | 0 => h
  | n + 1 => by
    refine disc_acq ⟨.inr fun h => ?_, by simp [Lock.priv], .inl fun x hx => hH x hx⟩ (disc_rel (netlogs_disc (s := s) hH h n))
    have := hH _ h
    simp [Lock.rank] at this

/-- A mutex locked in a callback of socket `s`. -/
theorem cb_ok {s l} (hp : l.priv = false) (hr : l ≠ .sock s) (hf : ∀ j, l ≠ .future j) (hz : l = .deflate s → Z s) : okN Z [.sock s] l := by
  refine ⟨.inr (by simpa using hr), by simp [hp], .inr ⟨s, ?_, hf, hz⟩⟩
  simp

theorem cb_sock {s t} : okN Z [.sock s] (.sock t) :=
  ⟨.inl rfl, by simp [Lock.priv], .inr ⟨s, by simp, by simp, by simp⟩⟩

theorem cb_next {s m l} (hp : l.priv = false) (hm : m.rank < l.rank) (hr : l.recursive = true ∨ l ≠ .sock s) (hf : ∀ j, l ≠ .future j)
    (hz : ∀ x, l ≠ .deflate x) : okN Z [m, .sock s] l := by
  refine ⟨?_, by simp [hp], .inr ⟨s, by simp [hm], hf, fun h => absurd h (hz s)⟩⟩
  rcases hr with h | h
  · exact .inl h
  · refine .inr ?_
    simp only [List.mem_cons, List.not_mem_nil, or_false, not_or]
    exact ⟨fun e => by rw [e] at hm; omega, h⟩

theorem erase_second {a b : Lock} {H : List Lock} (h : a ≠ b) : (a :: b :: H).erase b = a :: H := by
  rw [List.erase_cons_tail (by simpa using h)]
  simp

theorem netcall_disc {s r} (h : Disc (okN Z) [.sock s] r) (c : Call) (hc : (∀ n f, c ≠ .sendCompressed s n f) ∨ Z s) :
    Disc (okN Z) [.sock s] (c.ops ++ r) := by
  have rk : ∀ n, Lock.rank (.sock n) < 6 := fun n => by simp [Lock.rank]
  have lg : ∀ r, Disc (okN Z) [.sock s] r → ∀ n, Disc (okN Z) [.sock s] (logs n ++ r) := fun r h n =>
    netlogs_disc (s := s) (by simp [Lock.rank]) h n
  have lg2 : ∀ m r, m.rank < 6 → Disc (okN Z) [m, .sock s] r → ∀ n, Disc (okN Z) [m, .sock s] (logs n ++ r) := fun m r hm h n =>
    netlogs_disc (s := s) (by simp only [List.mem_cons, List.not_mem_nil, or_false, forall_eq_or_imp, forall_eq]; exact ⟨hm, rk s⟩) h n
  have one : ∀ l : Lock, l.priv = false → l.recursive = false → (∀ j, l ≠ .future j) → (∀ j, l ≠ .deflate j) →
      ∀ r, Disc (okN Z) [.sock s] r → Disc (okN Z) [.sock s] (acq l :: rel l :: r) :=
    fun l hp hr hf hd r h => disc_acq (cb_ok hp (fun e => by subst e; simp [Lock.recursive] at hr) hf (fun e => absurd e (hd s))) (disc_rel h)
  cases c with
  | log => exact lg r h 1
  | synchronize p =>
    cases p with
    | false =>
      exact disc_acq (cb_ok rfl (by simp) (by simp) (by simp)) (disc_acq (cb_next rfl (by decide) (.inl rfl) (by simp) (by simp))
        (disc_rel (disc_rel h)))
    | true =>
      refine disc_acq (cb_ok rfl (by simp) (by simp) (by simp)) (disc_acq (cb_next rfl (by decide) (.inl rfl) (by simp) (by simp)) ?_)
      refine ⟨by simp, ?_⟩
      rw [erase_second (by simp)]
      exact disc_acq (cb_next rfl (by decide) (.inr (by simp)) (by simp) (by simp)) (disc_rel (disc_rel h))
  | reloadLogger =>
    exact disc_acq (cb_ok rfl (by simp) (by simp) (by simp)) (disc_acq (cb_next rfl (by decide) (.inr (by simp)) (by simp) (by simp))
      (disc_rel (disc_rel h)))
  | send t n =>
    simp only [Call.ops, List.cons_append, List.append_assoc]
    exact disc_acq cb_sock (lg2 _ _ (rk t) (disc_rel h) n)
  | sendCompressed t n f =>
    have hz : Lock.deflate t = .deflate s → Z s := by
      intro e
      cases e
      rcases hc with hc | hc
      · exact absurd rfl (hc n f)
      · exact hc
    cases f with
    | false =>
      simp only [Call.ops, List.cons_append, List.append_assoc]
      refine disc_acq (cb_ok rfl (by simp) (by simp) hz) (disc_acq (cb_next rfl (by simp [Lock.rank]) (.inl rfl) (by simp) (by simp)) ?_)
      exact netlogs_disc (s := s) (by simp [Lock.rank]) (disc_rel (disc_rel h)) n
    | true =>
      simp only [Call.ops, List.cons_append, List.append_assoc]
      refine disc_acq (cb_ok rfl (by simp) (by simp) hz) (lg2 _ _ (by simp [Lock.rank]) (disc_rel ?_) 1)
      exact disc_acq cb_sock (lg2 _ _ (rk t) (disc_rel h) n)
  | inflate t => exact one _ rfl rfl (by simp) (by simp) r h
  | insertSocket n =>
    simp only [Call.ops, List.cons_append, List.append_assoc]
    exact disc_acq (cb_ok rfl (by simp) (by simp) (by simp)) (lg2 _ _ (by simp [Lock.rank]) (disc_rel h) n)
  | network => exact one _ rfl rfl (by simp) (by simp) r h
  | launchTask => exact one _ rfl rfl (by simp) (by simp) r h
  | insertTimer => exact one _ rfl rfl (by simp) (by simp) r h
  | launchFiber => exact one _ rfl rfl (by simp) (by simp) r h
  | reloadFibers => exact one _ rfl rfl (by simp) (by simp) r h
  | connect t =>
    exact disc_acq (cb_ok rfl (by simp) (by simp) (by simp)) (disc_acq (cb_next rfl (by simp [Lock.rank]) (.inr (by simp)) (by simp) (by simp))
      (disc_rel (disc_rel h)))
  | push t l n =>
    cases l with
    | false =>
      simp only [Call.ops, List.cons_append, List.append_assoc]
      exact disc_acq (cb_ok rfl (by simp) (by simp) (by simp)) (lg2 _ _ (by simp [Lock.rank]) (disc_rel h) n)
    | true =>
      simp only [Call.ops, List.cons_append, List.append_assoc]
      exact disc_acq (cb_ok rfl (by simp) (by simp) (by simp)) (disc_acq (cb_next rfl (by simp [Lock.rank]) (.inr (by simp)) (by simp) (by simp))
        (disc_rel (lg2 _ _ (by simp [Lock.rank]) (disc_rel h) n)))
  | table t => exact one _ rfl rfl (by simp) (by simp) r h
  | allocate k => exact one _ rfl rfl (by simp) (by simp) _ (one _ rfl rfl (by simp) (by simp) r h)
  | pool k off n =>
    cases off with
    | true =>
      simp only [Call.ops, List.cons_append]
      exact one _ rfl rfl (by simp) (by simp) _ (lg r h n)
    | false =>
      simp only [Call.ops, List.append_assoc]
      exact lg _ (one _ rfl rfl (by simp) (by simp) _ (one _ rfl rfl (by simp) (by simp) r h)) n
  | reloadConnector k => exact one _ rfl rfl (by simp) (by simp) r h
  | mainConfig => exact one _ rfl rfl (by simp) (by simp) r h
  | uuid => exact one _ rfl rfl (by simp) (by simp) r h

theorem netbody_disc {s r} (h : Disc (okN Z) [.sock s] r) : ∀ cs : List Call, ((∀ n f, Call.sendCompressed s n f ∉ cs) ∨ Z s) →
    Disc (okN Z) [.sock s] (body cs ++ r)
  | [], _ => h
  | c :: cs, hc => by
    simp only [body, List.flatMap_cons, List.append_assoc]
    refine netcall_disc (netbody_disc h cs ?_) c ?_
    · rcases hc with hc | hc
      · exact .inl fun n f hm => hc n f (by simp [hm])
      · exact .inr hc
    · rcases hc with hc | hc
      · exact .inl fun n f e => hc n f (by simp [e])
      · exact .inr hc

theorem netnil_ok {l : Lock} (h : l.priv = true → l = .event) : okN Z [] l := ⟨.inr (by simp), h, .inl (by simp)⟩

theorem net_disc {x : NetRun} {r} (h : Disc (okN Z) [] r)
    (hc : ∀ c s cs n, x = .event c s cs n → (∀ m f, Call.sendCompressed s m f ∉ cs) ∨ Z s) : Disc (okN Z) [] (x.ops ++ r) := by
  have pre : ∀ r, Disc (okN Z) [] r → Disc (okN Z) [] (acq netConf :: rel netConf :: acq epoll :: rel epoll :: r) := fun r h =>
    disc_acq (netnil_ok (by simp [Lock.priv])) (disc_rel (disc_acq (netnil_ok (by simp [Lock.priv])) (disc_rel h)))
  have ev : ∀ r n, Disc (okN Z) [.event] r → Disc (okN Z) [] (acq .event :: (logs n ++ r)) := fun r n h =>
    disc_acq (netnil_ok (by simp)) (netlogs_disc (s := 0) (by simp [Lock.rank]) h n)
  cases x with
  | none => exact pre r h
  | idle => exact pre _ (ev _ 1 (disc_rel h))
  | gone c =>
    simp only [NetRun.ops, List.cons_append, List.append_assoc]
    exact pre _ (ev _ _ (disc_rel (disc_acq (netnil_ok (by simp [Lock.priv])) (disc_rel h))))
  | event c s cs n =>
    simp only [NetRun.ops, List.cons_append, List.append_assoc]
    refine pre _ (ev _ _ (disc_rel (disc_acq (netnil_ok (by simp [Lock.priv])) (disc_acq ?_ ?_))))
    · exact ⟨.inl rfl, by simp [Lock.priv], .inl (by simp [Lock.rank])⟩
    · refine ⟨by simp, ?_⟩
      rw [erase_second (by simp)]
      exact netbody_disc (netlogs_disc (s := s) (by simp [Lock.rank]) (disc_rel h) n) cs (hc c s cs n rfl)
end
end Verif.Locks
