import Verif.Proofs.DbAskCase
/-!
# Connections, and what the pool believes about them
-/
namespace Verif.DbAsk
open Verif.Fiber (upd upd_same upd_other)
variable {D : Driver}

/-- What the pool makes of a call to `execute()`. -/
def Use.on (k : Pool.Kind) : Use → Pool.Conn → Pool.Conn
  | .nothing, p => p
  | .connects, p => { p with connected := true }
  | .sends err, p => Pool.executeConn k 0 err p

/-- What drivers have in common.  `R` is that the pool's view of a connection is right. -/
structure Laws (D : Driver) where
  grows : ∀ net c cmd, ∃ evs, D.trace (D.execute net c cmd).1 = D.trace c ++ evs
  uri_fresh : ∀ u w, D.uri (D.fresh u w) = u
  uri_execute : ∀ net c cmd, D.uri (D.execute net c cmd).1 = D.uri c
  uri_fetch : ∀ net c, D.uri (D.fetch net c).1 = D.uri c
  uri_next : ∀ net c, D.uri (D.next net c) = D.uri c
  uri_reset : ∀ ok c, D.uri (D.reset ok c).1 = D.uri c
  trace_fresh : ∀ u w, D.trace (D.fresh u w) = []
  trace_fetch : ∀ net c, D.trace (D.fetch net c).1 = D.trace c
  trace_next : ∀ net c, D.trace (D.next net c) = D.trace c
  trace_reset : ∀ ok c, D.trace (D.reset ok c).1 = D.trace c
  R : Pool.Conn → D.Conn → Prop
  R_fresh : ∀ u w, R { uri := u, password := w } (D.fresh u w)
  R_execute : ∀ net p c cmd, R p c → R ((D.use net c cmd).on D.kind p) (D.execute net c cmd).1
  R_fetch : ∀ net p c, R p c → R p (D.fetch net c).1
  R_next : ∀ net p c, R p c → R p (D.next net c)
  R_reset : ∀ ok p c, R p c → R (Pool.resetConn D.kind ok p) (D.reset ok c).1
  R_view : ∀ p c, R p c → p.uri = D.uri c ∧ p.clear = D.clear c

theorem future_ne_user (f h : Nat) : future f ≠ user h := by unfold future user; omega
theorem future_inj {f g : Nat} (h : future f = future g) : f = g := by unfold future at h; omega

theorem heard_append (id : Nat) (a b : List (Item D)) : heard id (a ++ b) = heard id a ++ heard id b := List.filterMap_append ..
theorem asked_append (f : Nat) (a b : List (Item D)) : asked f (a ++ b) = asked f a ++ asked f b := List.filterMap_append ..
theorem fibers_append (a b : List (Item D)) : fibers (a ++ b) = fibers a ++ fibers b := List.filterMap_append ..

theorem heard_fiber (id : Nat) (l : List Fiber.Ev) : heard id (l.map (Item.fiber (D := D))) = [] := by
  induction l with
  | nil => rfl
  | cons e l ih => exact ih
theorem asked_fiber (f : Nat) (l : List Fiber.Ev) : asked f (l.map (Item.fiber (D := D))) = [] := by
  induction l with
  | nil => rfl
  | cons e l ih => exact ih
theorem fibers_fiber (l : List Fiber.Ev) : fibers (l.map (Item.fiber (D := D))) = l := by
  induction l with
  | nil => rfl
  | cons e l ih => exact congrArg (e :: ·) ih
theorem fibers_server (o id : Nat) (l : List D.Ev) : fibers (l.map (Item.server o id)) = [] := by
  induction l with
  | nil => rfl
  | cons e l ih => exact ih
theorem heard_server_same (o id : Nat) (l : List D.Ev) : heard id (l.map (Item.server o id)) = l := by
  induction l with
  | nil => rfl
  | cons e l ih =>
    show heard id (Item.server o id e :: l.map (Item.server o id)) = _
    unfold heard at ih ⊢
    rw [List.filterMap_cons]
    simp only [if_true]
    rw [ih]
theorem heard_server_other (o : Nat) {id i : Nat} (h : id ≠ i) (l : List D.Ev) : heard i (l.map (Item.server o id)) = [] := by
  induction l with
  | nil => rfl
  | cons e l ih =>
    show heard i (Item.server o id e :: l.map (Item.server o id)) = _
    unfold heard at ih ⊢
    rw [List.filterMap_cons]
    simp only [h, if_false]
    exact ih
theorem asked_server_same (f id : Nat) (l : List D.Ev) : asked f (l.map (Item.server (future f) id)) = l.map fun e => (id, e) := by
  induction l with
  | nil => rfl
  | cons e l ih =>
    show asked f (Item.server (future f) id e :: l.map (Item.server (future f) id)) = _
    unfold asked at ih ⊢
    rw [List.filterMap_cons]
    simp only [if_true]
    rw [ih]; rfl
theorem asked_server_other {o f : Nat} (h : o ≠ future f) (id : Nat) (l : List D.Ev) : asked f (l.map (Item.server o id)) = [] := by
  induction l with
  | nil => rfl
  | cons e l ih =>
    show asked f (Item.server o id e :: l.map (Item.server o id)) = _
    unfold asked at ih ⊢
    rw [List.filterMap_cons]
    simp only [h, if_false]
    exact ih

structure PInv (L : Laws D) (s : Sys D) : Prop where
  reach : Pool.Reachable s.pool
  kind : s.pool.kind = D.kind
  conf : s.pool.conf ∈ s.confs
  snap : ∀ x c, s.pool.snap x = some c → c ∈ s.confs
  owns : ∀ f id, (s.phase f).conn = some id → (future f, id) ∈ s.pool.owned
  agree : ∀ id, id < s.pool.next → L.R (s.pool.conn id) (s.real id)
  heard : ∀ id, heard id s.log = D.trace (s.real id)
  unborn : ∀ id, s.pool.next ≤ id → D.trace (s.real id) = []
  from_ : ∀ f id, (s.phase f).conn = some id → ConnOf s f id (D.uri (s.real id))

variable {L : Laws D} {s : Sys D}

theorem PInv.phase (h : PInv L s) {phase' : Nat → Phase D} (hp : ∀ f id, (phase' f).conn = some id → (s.phase f).conn = some id) : PInv L { s with phase := phase' } where
  reach := h.reach
  kind := h.kind
  conf := h.conf
  snap := h.snap
  owns f id hf := h.owns f id (hp f id hf)
  agree := h.agree
  heard := h.heard
  unborn := h.unborn
  from_ f id hf := h.from_ f id (hp f id hf)

theorem ConnOf.mono {s s' : Sys D} {f id : Nat} {uri : Bytes} (h : ConnOf s f id uri) (ht : ∃ l, s'.pool.trace = l ++ s.pool.trace) (hc : ∀ c ∈ s.confs, c ∈ s'.confs) : ConnOf s' f id uri := by
  obtain ⟨l, hl⟩ := ht
  obtain ⟨⟨o, pw, h0⟩, h⟩ := h
  refine ⟨⟨o, pw, by rw [hl]; exact List.mem_append.2 (.inr h0)⟩, ?_⟩
  rcases h with ⟨x, hx⟩ | ⟨c, h1, h2, pw, new, h3⟩
  · exact .inl ⟨x, by rw [hl]; exact List.mem_append.2 (.inr hx)⟩
  · exact .inr ⟨c, hc c h1, h2, pw, new, by rw [hl]; exact List.mem_append.2 (.inr h3)⟩

theorem PInv.born (h : PInv L s) {id : Nat} (hid : id < s.pool.next) : ∃ o pw, Pool.Ev.given o id (D.uri (s.real id)) pw true ∈ s.pool.trace := by
  rw [← (L.R_view _ _ (h.agree id hid)).1]
  exact (Pool.inv h.reach).uri id hid

/-- Steps of the pool that change no connection. -/
theorem PInv.pool (h : PInv L s) {p : Pool.Sys} {confs : List Pool.Conf} (hr : Pool.Reachable p) (hk : p.kind = s.pool.kind) (hcs : ∀ c ∈ s.confs, c ∈ confs) (hc : p.conf ∈ confs)
    (hs : ∀ x c, p.snap x = some c → c ∈ confs) (hn : p.next = s.pool.next) (hcn : p.conn = s.pool.conn) (ht : ∃ l, p.trace = l ++ s.pool.trace)
    (ho : ∀ f id, (s.phase f).conn = some id → (future f, id) ∈ p.owned) : PInv L { s with pool := p, confs := confs } where
  reach := hr
  kind := hk.trans h.kind
  conf := hc
  snap := hs
  owns := ho
  agree id hid := by
    show L.R (p.conn id) (s.real id)
    rw [hcn]; exact h.agree id (by rw [← hn]; exact hid)
  heard := h.heard
  unborn id hid := h.unborn id (by rw [← hn]; exact hid)
  from_ f id hf := (h.from_ f id hf).mono ht hcs

/-- An owner uses a connection. -/
theorem PInv.touch (h : PInv L s) {p : Pool.Sys} {o id : Nat} {c : D.Conn} {evs : List D.Ev} (hr : Pool.Reachable p) (hown : (o, id) ∈ s.pool.owned) (hk : p.kind = s.pool.kind)
    (hc : p.conf = s.pool.conf) (hs : p.snap = s.pool.snap) (hn : p.next = s.pool.next) (ho : p.owned = s.pool.owned) (ht : ∃ l, p.trace = l ++ s.pool.trace)
    (hcn : ∀ i, i ≠ id → p.conn i = s.pool.conn i) (hR : L.R (p.conn id) c) (htr : D.trace c = D.trace (s.real id) ++ evs) (hu : D.uri c = D.uri (s.real id)) :
    PInv L { s with pool := p, real := upd s.real id c, log := s.log ++ evs.map (.server o id) } where
  reach := hr
  kind := hk.trans h.kind
  conf := by show p.conf ∈ _; rw [hc]; exact h.conf
  snap := by show ∀ x c, p.snap x = some c → _; rw [hs]; exact h.snap
  owns := by show ∀ f id, _ → _ ∈ p.owned; rw [ho]; exact h.owns
  agree i hi := by
    show L.R (p.conn i) (upd s.real id c i)
    by_cases he : i = id
    · subst he; rw [upd_same]; exact hR
    · rw [upd_other _ _ he, hcn i he]; exact h.agree i (by rw [← hn]; exact hi)
  heard i := by
    show DbAsk.heard i (s.log ++ _) = D.trace (upd s.real id c i)
    rw [heard_append, h.heard]
    by_cases he : i = id
    · subst he; rw [upd_same, heard_server_same, htr]
    · rw [upd_other _ _ he, heard_server_other _ (fun x => he x.symm), List.append_nil]
  unborn i hi := by
    show D.trace (upd s.real id c i) = []
    have hi' : s.pool.next ≤ i := by rw [← hn]; exact hi
    have := Pool.owned_lt (Pool.inv h.reach) hown
    rw [upd_other _ _ (by omega)]
    exact h.unborn i hi'
  from_ f i hf := by
    show ConnOf _ f i (D.uri (upd s.real id c i))
    have : D.uri (upd s.real id c i) = D.uri (s.real i) := by
      by_cases he : i = id
      · subst he; rw [upd_same, hu]
      · rw [upd_other _ _ he]
    rw [this]
    exact (h.from_ f i hf).mono ht (fun _ h => h)

theorem PInv.real (h : PInv L s) {o id : Nat} {c : D.Conn} (hown : (o, id) ∈ s.pool.owned) (hR : L.R (s.pool.conn id) c) (htr : D.trace c = D.trace (s.real id))
    (hu : D.uri c = D.uri (s.real id)) : PInv L { s with real := upd s.real id c } := by
  have := h.touch (p := s.pool) (evs := []) h.reach hown rfl rfl rfl rfl rfl ⟨[], rfl⟩ (fun _ _ => rfl) hR (by rw [htr, List.append_nil]) hu
  simpa using this

theorem PInv.fiber (h : PInv L s) {fib : Fiber.Sys} {l : List Fiber.Ev} {phase' : Nat → Phase D} (hp : ∀ f id, (phase' f).conn = some id → (s.phase f).conn = some id) :
    PInv L { s with fib := fib, log := s.log ++ l.map .fiber, phase := phase' } where
  reach := h.reach
  kind := h.kind
  conf := h.conf
  snap := h.snap
  owns f id hf := h.owns f id (hp f id hf)
  agree := h.agree
  heard i := by
    show DbAsk.heard i (s.log ++ _) = _
    rw [heard_append, heard_fiber, List.append_nil]; exact h.heard i
  unborn := h.unborn
  from_ f id hf := h.from_ f id (hp f id hf)

theorem upd_conn {phase : Nat → Phase D} {f : Nat} {ph : Phase D} (h : ∀ id, ph.conn = some id → (phase f).conn = some id) :
    ∀ g id, (upd phase f ph g).conn = some id → (phase g).conn = some id := by
  intro g id hg
  by_cases he : g = f
  · subst he; rw [upd_same] at hg; exact h id hg
  · rwa [upd_other _ _ he] at hg

theorem quiet_pool (h : PInv L s) {a : Pool.Act} {p : Pool.Sys} (hs : Pool.step s.pool a = some p) (ha : Quiet a) : PInv L { s with pool := p } := by
  have hr : Pool.Reachable p := .step h.reach hs
  have ht := Pool.step_trace hs
  cases ha with
  | tick n => cases hs; exact h.pool (confs := s.confs) hr rfl (fun _ h => h) h.conf h.snap rfl rfl ht h.owns
  | read o =>
    cases hs
    refine h.pool (confs := s.confs) hr rfl (fun _ h => h) h.conf ?_ rfl rfl ht h.owns
    intro x c hx
    dsimp only at hx
    split at hx
    · cases hx; exact h.conf
    · exact h.snap x c hx
  | giveBack o id =>
    simp only [Pool.step] at hs
    split at hs
    · obtain ⟨c, hc, rfl⟩ := Option.map_eq_some_iff.1 hs
      refine h.pool (confs := s.confs) hr ?_ (fun _ h => h) ?_ ?_ ?_ ?_ ht ?_
      · exact (Pool.giveBack_same (c' := c) ..).1
      · rw [(Pool.giveBack_same (c' := c) ..).2.1]; exact h.conf
      · intro x c' hx; exact h.snap x c' ((Pool.giveBack_same (c' := c') ..).2.2.2.2.1 x hx)
      · exact (Pool.giveBack_same (c' := c) ..).2.2.1
      · exact (Pool.giveBack_same (c' := c) ..).2.2.2.1
      · intro f i hf
        refine (Pool.giveBack_same (c' := c) ..).2.2.2.2.2 _ (h.owns f i hf) ?_
        intro he
        exact future_ne_user f o (by injection he)
    · cases hs
  | destroy o id =>
    simp only [Pool.step] at hs
    split at hs
    · cases hs
      refine h.pool (confs := s.confs) hr rfl (fun _ h => h) h.conf h.snap rfl rfl ht ?_
      intro f i hf
      refine List.mem_filter.2 ⟨h.owns f i hf, ?_⟩
      have := future_ne_user f o
      simp [this]
    · cases hs

theorem alloc_pool (h : PInv L s) {o id : Nat} {uri pw : Bytes} {new : Bool} {p : Pool.Sys} (hg : Pool.Given s.pool p o id uri pw new) (hr : Pool.Reachable p) (ht : ∃ l, p.trace = l ++ s.pool.trace) :
    PInv L { s with pool := p, real := if new then upd s.real id (D.fresh uri pw) else s.real } := by
  cases new with
  | false =>
    obtain ⟨h1, h2, h3, h4⟩ := hg.old rfl
    refine h.pool (confs := s.confs) hr hg.kind (fun _ h => h) ?_ ?_ h1 h2 ht ?_
    · rw [hg.conf]; exact h.conf
    · intro x c hx; exact h.snap x c (hg.snap x c hx)
    · intro f i hf; rw [hg.owned]; exact .tail _ (h.owns f i hf)
  | true =>
    obtain ⟨h1, h2, h3⟩ := hg.fresh rfl
    subst h1
    have hlt : ∀ f i, (s.phase f).conn = some i → i ≠ s.pool.next := fun f i hf => Nat.ne_of_lt (Pool.owned_lt (Pool.inv h.reach) (h.owns f i hf))
    constructor
    case reach => exact hr
    case kind => exact hg.kind.trans h.kind
    case conf => show p.conf ∈ _; rw [hg.conf]; exact h.conf
    case snap => intro x c hx; exact h.snap x c (hg.snap x c hx)
    case owns => intro f i hf; show _ ∈ p.owned; rw [hg.owned]; exact .tail _ (h.owns f i hf)
    case agree =>
      intro i hi
      show L.R (p.conn i) (upd s.real s.pool.next (D.fresh uri pw) i)
      rw [h3]
      by_cases he : i = s.pool.next
      · subst he; rw [upd_same]; simp only [if_true]; exact L.R_fresh uri pw
      · rw [upd_other _ _ he]; simp only [he, if_false]
        refine h.agree i ?_
        have : i < p.next := hi
        omega
    case heard =>
      intro i
      show DbAsk.heard i s.log = D.trace (upd s.real s.pool.next (D.fresh uri pw) i)
      rw [h.heard]
      by_cases he : i = s.pool.next
      · subst he; rw [upd_same, L.trace_fresh, h.unborn _ (Nat.le_refl _)]
      · rw [upd_other _ _ he]
    case unborn =>
      intro i hi
      show D.trace (upd s.real s.pool.next (D.fresh uri pw) i) = []
      have : p.next ≤ i := hi
      rw [upd_other _ _ (by omega)]
      exact h.unborn i (by omega)
    case from_ =>
      intro f i hf
      show ConnOf _ f i (D.uri (upd s.real s.pool.next (D.fresh uri pw) i))
      rw [upd_other _ _ (hlt f i hf)]
      exact (h.from_ f i hf).mono ht (fun _ h => h)

theorem pinv_init (L : Laws D) (warn fail : Nat) : PInv L (start D warn fail) where
  reach := .init _
  kind := rfl
  conf := by simp [start]
  snap := by simp [start]
  owns := by simp [start, Phase.conn]
  agree := by intro id h; exact absurd h (Nat.not_lt_zero _)
  heard := by intro id; show [] = D.trace (D.fresh [] []); rw [L.trace_fresh]
  unborn := by intro id _; exact L.trace_fresh _ _
  from_ := by simp [start, Phase.conn]

theorem pinv_step {cmd : Nat → D.Cmd} {s' : Sys D} (h : PInv L s) (hc : Case cmd s s') : PInv L s' := by
  cases hc with
  | fiber a fib => exact h.fiber (phase' := s.phase) (fun _ _ h => h)
  | begin_ t f fib _ hi =>
    refine h.fiber ?_
    refine upd_conn ?_
    intro id hid
    split at hid
    · rename_i hp; rw [hp]; exact hid
    · exact nomatch hid
  | quiet a p hs ha => exact quiet_pool h hs ha
  | reload c p hs =>
    have hr : Pool.Reachable p := .step h.reach hs
    have ht := Pool.step_trace hs
    cases hs
    exact h.pool hr rfl (fun _ h => .tail _ h) (.head _) (fun x c hx => .tail _ (h.snap x c hx)) rfl rfl ht h.owns
  | lend o f id p hs hp =>
    have hr : Pool.Reachable p := .step h.reach hs
    have ht := Pool.step_trace hs
    simp only [Pool.step] at hs
    split at hs
    · rename_i hown
      cases hs
      have h1 := h.pool (confs := s.confs) hr rfl (fun _ h => h) h.conf h.snap rfl rfl ht (by
        intro g i hg
        refine .tail _ (List.mem_filter.2 ⟨h.owns g i hg, ?_⟩)
        have := future_ne_user g o
        simp [this])
      constructor
      case owns =>
        intro g i hg
        dsimp only at hg
        by_cases he : g = f
        · subst he
          rw [upd_same] at hg
          cases hg
          exact .head _
        · rw [upd_other _ _ he] at hg; exact h1.owns g i hg
      case from_ =>
        intro g i hg
        dsimp only at hg
        by_cases he : g = f
        · subst he
          rw [upd_same] at hg
          cases hg
          exact ⟨h1.born (Pool.owned_lt (Pool.inv h.reach) hown), .inl ⟨o, .head _⟩⟩
        · rw [upd_other _ _ he] at hg; exact h1.from_ g i hg
      case reach => exact h1.reach
      case kind => exact h1.kind
      case conf => exact h1.conf
      case snap => exact h1.snap
      case agree => exact h1.agree
      case heard => exact h1.heard
      case unborn => exact h1.unborn
    · cases hs
  | alloc o id uri pw new p hg hr ht phase' hp =>
    have h1 := alloc_pool h hg (hr h.reach) ht
    rcases hp with ⟨rfl, -⟩ | ⟨t, f, c, rfl, hsn, rfl, hi, hph, rfl⟩
    · exact h1
    · have hu : D.uri ((if new then upd s.real id (D.fresh c.uri pw) else s.real) id) = c.uri := by
        cases new with
        | true => simp only [if_true]; rw [upd_same]; exact L.uri_fresh _ _
        | false =>
          obtain ⟨-, -, h3, h4⟩ := hg.old rfl
          have := L.R_view _ _ (h.agree id (Pool.pooled_lt (Pool.inv h.reach) h3).1)
          rw [h4] at this
          exact this.1.symm
      constructor
      case owns =>
        intro g i hg'
        dsimp only at hg'
        by_cases he : g = f
        · subst he
          rw [upd_same] at hg'
          cases hg'
          show _ ∈ p.owned
          rw [hg.owned]; exact .head _
        · rw [upd_other _ _ he] at hg'; exact h1.owns g i hg'
      case from_ =>
        intro g i hg'
        dsimp only at hg'
        by_cases he : g = f
        · subst he
          rw [upd_same] at hg'
          cases hg'
          refine ⟨h1.born (Pool.owned_lt (Pool.inv h1.reach) (show (future g, id) ∈ p.owned by rw [hg.owned]; exact .head _)), .inr ⟨c, h.snap _ _ hsn, ?_, pw, new, hg.ev⟩⟩
          exact hu.symm
        · rw [upd_other _ _ he] at hg'; exact h1.from_ g i hg'
      case reach => exact h1.reach
      case kind => exact h1.kind
      case conf => exact h1.conf
      case snap => exact h1.snap
      case agree => exact h1.agree
      case heard => exact h1.heard
      case unborn => exact h1.unborn
  | exec o id net c p ho hs phase' hp =>
    have hr : Pool.Reachable p := .step h.reach hs
    have ht := Pool.step_trace hs
    obtain ⟨evs, hev⟩ := L.grows net (s.real id) c
    have hlt := Pool.owned_lt (Pool.inv h.reach) ho
    have hR := L.R_execute net _ _ c (h.agree id hlt)
    have h1 : PInv L { s with pool := p, real := upd s.real id (D.execute net (s.real id) c).1, log := s.log ++ evs.map (.server o id) } := by
      generalize D.use net (s.real id) c = u at hs hR
      cases u with
      | nothing => cases hs; exact h.touch hr ho rfl rfl rfl rfl rfl ht (fun _ _ => rfl) hR hev (L.uri_execute ..)
      | connects =>
        simp only [Use.act, Pool.step] at hs
        rw [if_pos ho] at hs
        cases hs
        refine h.touch hr ho rfl rfl rfl rfl rfl ht ?_ ?_ hev (L.uri_execute ..)
        · intro i hi; simp [Pool.update, hi]
        · simp only [Pool.update, if_true]; exact hR
      | sends err =>
        simp only [Use.act, Pool.step] at hs
        rw [if_pos ho] at hs
        cases hs
        refine h.touch hr ho rfl rfl rfl rfl rfl ht ?_ ?_ hev (L.uri_execute ..)
        · intro i hi; simp [Pool.update, hi]
        · simp only [Pool.update, if_true]; rw [h.kind]; exact hR
    rw [show (D.trace (D.execute net (s.real id) c).1).drop (D.trace (s.real id)).length = evs from by rw [hev]; simp]
    refine h1.phase ?_
    rcases hp with ⟨rfl, -⟩ | ⟨t, f, rfl, rfl, hi, hph, rfl⟩
    · exact fun _ _ h => h
    · refine upd_conn ?_
      intro i hi
      rw [hph]
      split at hi <;> exact hi
  | next o id net ho =>
    exact h.real ho (L.R_next net _ _ (h.agree id (Pool.owned_lt (Pool.inv h.reach) ho))) (L.trace_next ..) (L.uri_next ..)
  | fetch t f id net hi hp =>
    have ho := h.owns f id (by rw [hp]; rfl)
    refine (h.real ho (L.R_fetch net _ _ (h.agree id (Pool.owned_lt (Pool.inv h.reach) ho))) (L.trace_fetch ..) (L.uri_fetch ..)).phase ?_
    refine upd_conn ?_
    intro i hi; rw [hp]; exact hi
  | reset o id ok p hs phase' hp =>
    have hr : Pool.Reachable p := .step h.reach hs
    have ht := Pool.step_trace hs
    simp only [Pool.step] at hs
    split at hs
    · rename_i ho
      cases hs
      have h1 := h.touch (evs := []) hr ho rfl rfl rfl rfl rfl ht (c := (D.reset ok (s.real id)).1)
        (by intro i hi; simp [Pool.update, hi])
        (by simp only [Pool.update, if_true]; rw [h.kind]; exact L.R_reset ok _ _ (h.agree id (Pool.owned_lt (Pool.inv h.reach) ho)))
        (by rw [L.trace_reset, List.append_nil]) (L.uri_reset ..)
      simp only [List.map_nil, List.append_nil] at h1
      refine h1.phase ?_
      rcases hp with ⟨rfl, -⟩ | ⟨t, f, r, rfl, hi, hph, rfl⟩
      · exact fun _ _ h => h
      · refine upd_conn ?_
        intro i hi
        rw [hph]
        split at hi
        · exact hi
        · exact nomatch hi
    · cases hs
  | readConf t f p hs hi hp => exact (quiet_pool h hs (.read _)).phase (upd_conn (by intro i hi; exact nomatch hi))
  | rereadConf t f id r p hs hi hp => exact (quiet_pool h hs (.read _)).phase (upd_conn (by intro i hi; rw [hp]; exact hi))
  | giveBack t f id r p hs hi hp =>
    have hr : Pool.Reachable p := .step h.reach hs
    have ht := Pool.step_trace hs
    simp only [Pool.step] at hs
    split at hs
    · obtain ⟨c, hc, rfl⟩ := Option.map_eq_some_iff.1 hs
      have h0 := h.phase (phase' := upd s.phase f (.over r)) (upd_conn (by intro i hi; exact nomatch hi))
      refine h0.pool (confs := s.confs) hr ?_ (fun _ h => h) ?_ ?_ ?_ ?_ ht ?_
      · exact (Pool.giveBack_same (c' := c) ..).1
      · rw [(Pool.giveBack_same (c' := c) ..).2.1]; exact h.conf
      · intro x c' hx; exact h.snap x c' ((Pool.giveBack_same (c' := c') ..).2.2.2.2.1 x hx)
      · exact (Pool.giveBack_same (c' := c) ..).2.2.1
      · exact (Pool.giveBack_same (c' := c) ..).2.2.2.1
      · intro g i hg
        refine (Pool.giveBack_same (c' := c) ..).2.2.2.2.2 _ (h0.owns g i hg) ?_
        intro he
        have h2 : g = f := future_inj (by injection he)
        subst h2
        dsimp only at hg
        rw [upd_same] at hg
        exact nomatch hg
    · cases hs

end Verif.DbAsk
