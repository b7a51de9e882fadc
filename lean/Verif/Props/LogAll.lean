import Verif.Spec.LogAll
import Verif.Props.Logger
import Verif.Props.LogFiles
/-!
# C126: from enqueuing messages to the contents of files
-/
namespace Verif.Props
open Verif.LogAll
open Verif.LogFiles (Os St Works content tried toFile emplace)

theorem la_logger {os : Os} {s : LogAll.Sys} (h : LogAll.Reachable os s) : Logger.Reachable s.log := by
  induction h with
  | init conf => exact .init _
  | @step w w' a _ hs ih =>
    cases a with
    | enqueue l m =>
      simp only [LogAll.step, Option.map_eq_some_iff] at hs
      obtain ⟨l', h1, rfl⟩ := hs
      exact .step _ ih h1
    | call t m =>
      simp only [LogAll.step, Option.map_eq_some_iff] at hs
      obtain ⟨l', h1, rfl⟩ := hs
      exact .step _ ih h1
    | go t time =>
      simp only [LogAll.step, Option.map_eq_some_iff] at hs
      obtain ⟨l', h1, rfl⟩ := hs
      exact .step _ ih h1
    | reload conf =>
      simp only [LogAll.step, Option.map_eq_some_iff] at hs
      obtain ⟨l', h1, rfl⟩ := hs
      exact .step _ ih h1

/-- The configurations. -/
structure ConfInv (s : LogAll.Sys) : Prop where
  cur : s.loaded.head? = some s.conf
  levels : s.log.levels = flags s.conf
  held : ∀ t m n lv todo, s.log.pc t = .writing m n lv todo → s.held t ∈ s.loaded ∧ lv = flags (s.held t)
  loaded : ∀ lv, Logger.Ev.loaded lv ∈ s.log.trace → ∃ c ∈ s.loaded, lv = flags c

theorem ConfInv.conf {s : LogAll.Sys} (h : ConfInv s) : s.conf ∈ s.loaded := List.mem_of_head? h.cur

theorem la_conf {os : Os} {s : LogAll.Sys} (h : LogAll.Reachable os s) : ConfInv s := by
  induction h with
  | init conf =>
    refine ⟨rfl, rfl, fun t m n lv todo e => ?_, fun lv e => ?_⟩
    · exact nomatch e
    · simp only [LogAll.init, List.mem_singleton, Logger.Ev.loaded.injEq] at e
      exact ⟨conf, by simp [LogAll.init], e⟩
  | @step w w' a _ hs ih =>
    cases a with
    | enqueue l m =>
      simp only [LogAll.step, Option.map_eq_some_iff] at hs
      obtain ⟨l', h1, rfl⟩ := hs
      simp only [Logger.step] at h1
      split at h1
      · cases h1
        exact ⟨ih.cur, ih.levels, ih.held, fun lv e => ih.loaded lv (by simpa using e)⟩
      · exact nomatch h1
    | call t m =>
      simp only [LogAll.step, Option.map_eq_some_iff] at hs
      obtain ⟨l', h1, rfl⟩ := hs
      simp only [Logger.step] at h1
      split at h1
      · cases h1
        refine ⟨ih.cur, ih.levels, fun u m' n lv todo e => ?_, fun lv e => ih.loaded lv ?_⟩
        · by_cases hu : u = t
          · subst hu; simp [Logger.upd] at e
          · exact ih.held u m' n lv todo (by simpa [Logger.upd, hu] using e)
        · revert e; dsimp only; split <;> simp
      · exact nomatch h1
    | go t time =>
      simp only [LogAll.step, Option.map_eq_some_iff] at hs
      obtain ⟨l', h1, rfl⟩ := hs
      simp only [Logger.step, Logger.go] at h1
      simp only [effect]
      have ret : ∀ m lv, Logger.Ev.loaded lv ∈ Logger.ret w.log t m → Logger.Ev.loaded lv ∈ w.log.trace := by
        intro m lv; unfold Logger.ret; split <;> simp
      cases hpc : w.log.pc t with
      | idle => rw [hpc] at h1; exact nomatch h1
      | entering m =>
        rw [hpc] at h1
        dsimp only at h1 ⊢
        split at h1
        · cases h1
          refine ⟨ih.cur, ih.levels, fun u m' n lv todo e => ?_, ih.loaded⟩
          by_cases hu : u = t
          · subst hu; simp [Logger.upd] at e
          · exact ih.held u m' n lv todo (by simpa [Logger.upd, hu] using e)
        · exact nomatch h1
      | locking m =>
        rw [hpc] at h1
        dsimp only at h1 ⊢
        split at h1
        · split at h1
          · cases h1
            refine ⟨ih.cur, ih.levels, fun u m' n lv todo e => ?_, fun lv e => ih.loaded lv (ret _ _ e)⟩
            by_cases hu : u = t
            · subst hu; simp [Logger.upd] at e
            · exact ih.held u m' n lv todo (by simpa [Logger.upd, hu] using e)
          · cases h1
            refine ⟨ih.cur, ih.levels, fun u m' n lv todo e => ?_, ih.loaded⟩
            by_cases hu : u = t
            · subst hu; simp [Logger.upd] at e
            · exact ih.held u m' n lv todo (by simpa [Logger.upd, hu] using e)
        · exact nomatch h1
      | reading m n todo =>
        rw [hpc] at h1
        dsimp only at h1 ⊢
        cases h1
        refine ⟨ih.cur, ih.levels, fun u m' n' lv todo' e => ?_, ih.loaded⟩
        by_cases hu : u = t
        · subst hu
          simp only [Logger.upd, if_true, Logger.Pc.writing.injEq] at e ⊢
          exact ⟨ih.conf, by rw [← e.2.2.1, ih.levels]⟩
        · have := ih.held u m' n' lv todo' (by simpa [Logger.upd, hu] using e)
          simpa [Logger.upd, hu] using this
      | writing m n lv todo =>
        rw [hpc] at h1
        have hh := ih.held t m n lv todo hpc
        cases todo with
        | nil =>
          dsimp only at h1 ⊢
          cases h1
          refine ⟨ih.cur, ih.levels, fun u m' n' lv todo' e => ?_, fun lv e => ih.loaded lv (ret _ _ e)⟩
          by_cases hu : u = t
          · subst hu; simp [Logger.upd] at e
          · exact ih.held u m' n' lv todo' (by simpa [Logger.upd, hu] using e)
        | cons msg todo =>
          dsimp only at h1 ⊢
          cases h1
          have key : ∀ io, ConfInv { w with io := io, log := { w.log with pc := Logger.upd w.log.pc t (.writing m n lv todo), trace := Logger.handle m n lv msg :: w.log.trace } } := by
            intro io
            refine ⟨ih.cur, ih.levels, fun u m' n' lv' todo' e => ?_, fun lv' e => ih.loaded lv' ?_⟩
            · by_cases hu : u = t
              · subst hu
                simp only [Logger.upd, if_true, Logger.Pc.writing.injEq] at e
                rw [← e.2.2.1]; exact hh
              · exact ih.held u m' n' lv' todo' (by simpa [Logger.upd, hu] using e)
            · rcases List.mem_cons.1 e with e | e
              · rcases Logger.handle_cases m n lv msg with h | h
                · rw [h] at e; exact nomatch e
                · rw [h.1] at e; exact nomatch e
              · exact e
          split
          · exact key _
          · exact key w.io
    | reload conf =>
      simp only [LogAll.step, Option.map_eq_some_iff] at hs
      obtain ⟨l', h1, rfl⟩ := hs
      simp only [Logger.step] at h1
      split at h1
      · cases h1
        refine ⟨rfl, rfl, fun u m n lv todo e => ?_, fun lv e => ?_⟩
        · obtain ⟨h2, h3⟩ := ih.held u m n lv todo e
          exact ⟨.tail _ h2, h3⟩
        · rcases List.mem_cons.1 e with e | e
          · cases e; exact ⟨conf, .head _, rfl⟩
          · obtain ⟨c, hc, e⟩ := ih.loaded lv e
            exact ⟨c, .tail _ hc, e⟩
      · exact nomatch h1

/-- A message is written with a configuration that was in force when it was enqueued, or later. -/
def HeldNew (s : LogAll.Sys) : Prop := ∀ t m n lv todo, s.log.pc t = .writing m n lv todo → ∀ msg ∈ todo, s.held t ∈ s.loaded.take (since msg.id s.log.trace + 1)

theorem la_new {os : Os} {s : LogAll.Sys} (h : LogAll.Reachable os s) : HeldNew s := by
  induction h with
  | init conf => intro t m n lv todo e; exact nomatch e
  | @step w w' a hr hs ih =>
    have hinv := Logger.inv (la_logger hr)
    have hconf := la_conf hr
    cases a with
    | enqueue l m =>
      simp only [LogAll.step, Option.map_eq_some_iff] at hs
      obtain ⟨l', h1, rfl⟩ := hs
      simp only [Logger.step] at h1
      split at h1
      · cases h1
        intro t m' n lv todo e msg hm
        have h2 := ih t m' n lv todo e msg hm
        have h3 : msg.id ≠ w.log.ids := by
          have hs := (hinv.slock t).2 (by rw [e]; rfl)
          have : msg.id ∈ Logger.ids (Logger.flight w.log) := List.mem_map.2 ⟨msg, by simp only [Logger.flight, hs]; rw [show w.log.pc t = _ from e]; exact hm, rfl⟩
          have := hinv.fresh msg.id (by rw [hinv.order]; simp [this])
          omega
        simpa [since, Ne.symm h3] using h2
      · exact nomatch h1
    | call t m =>
      simp only [LogAll.step, Option.map_eq_some_iff] at hs
      obtain ⟨l', h1, rfl⟩ := hs
      simp only [Logger.step] at h1
      split at h1
      · cases h1
        intro u m' n lv todo e msg hm
        by_cases hu : u = t
        · subst hu; simp [Logger.upd] at e
        · have := ih u m' n lv todo (by simpa [Logger.upd, hu] using e) msg hm
          dsimp only; split
          · exact this
          · exact this
      · exact nomatch h1
    | go t time =>
      simp only [LogAll.step, Option.map_eq_some_iff] at hs
      obtain ⟨l', h1, rfl⟩ := hs
      simp only [Logger.step, Logger.go] at h1
      simp only [effect]
      have ret : ∀ m id, since id (Logger.ret w.log t m) = since id w.log.trace := by
        intro m id; unfold Logger.ret; split <;> rfl
      cases hpc : w.log.pc t with
      | idle => rw [hpc] at h1; exact nomatch h1
      | entering m =>
        rw [hpc] at h1
        dsimp only at h1 ⊢
        split at h1
        · cases h1
          intro u m' n lv todo e
          by_cases hu : u = t
          · subst hu; simp [Logger.upd] at e
          · exact ih u m' n lv todo (by simpa [Logger.upd, hu] using e)
        · exact nomatch h1
      | locking m =>
        rw [hpc] at h1
        dsimp only at h1 ⊢
        split at h1
        · split at h1
          · cases h1
            intro u m' n lv todo e msg hm
            by_cases hu : u = t
            · subst hu; simp [Logger.upd] at e
            · dsimp only; rw [ret]; exact ih u m' n lv todo (by simpa [Logger.upd, hu] using e) msg hm
          · cases h1
            intro u m' n lv todo e
            by_cases hu : u = t
            · subst hu; simp [Logger.upd] at e
            · exact ih u m' n lv todo (by simpa [Logger.upd, hu] using e)
        · exact nomatch h1
      | reading m n todo =>
        rw [hpc] at h1
        dsimp only at h1 ⊢
        cases h1
        intro u m' n' lv todo' e msg hm
        by_cases hu : u = t
        · subst hu
          simp only [Logger.upd, if_true]
          have := hconf.cur
          cases hl : w.loaded with
          | nil => rw [hl] at this; exact nomatch this
          | cons c cs => rw [hl] at this; cases this; rw [List.take_succ_cons]; exact .head _
        · have := ih u m' n' lv todo' (by simpa [Logger.upd, hu] using e) msg hm
          simpa [Logger.upd, hu] using this
      | writing m n lv todo =>
        rw [hpc] at h1
        cases todo with
        | nil =>
          dsimp only at h1 ⊢
          cases h1
          intro u m' n' lv todo' e msg hm
          by_cases hu : u = t
          · subst hu; simp [Logger.upd] at e
          · dsimp only; rw [ret]; exact ih u m' n' lv todo' (by simpa [Logger.upd, hu] using e) msg hm
        | cons msg todo =>
          dsimp only at h1 ⊢
          cases h1
          have key : ∀ io, HeldNew { w with io := io, log := { w.log with pc := Logger.upd w.log.pc t (.writing m n lv todo), trace := Logger.handle m n lv msg :: w.log.trace } } := by
            intro io u m' n' lv' todo' e x hx
            have e2 : since x.id (Logger.handle m n lv msg :: w.log.trace) = since x.id w.log.trace := by
              rcases Logger.handle_cases m n lv msg with h | h
              · rw [h]; rfl
              · rw [h.1]; rfl
            dsimp only
            rw [e2]
            by_cases hu : u = t
            · subst hu
              simp only [Logger.upd, if_true, Logger.Pc.writing.injEq] at e
              refine ih u m n lv _ hpc x (.tail _ ?_)
              rw [e.2.2.2]; exact hx
            · exact ih u m' n' lv' todo' (by simpa [Logger.upd, hu] using e) x hx
          split
          · exact key _
          · exact key w.io
    | reload conf =>
      simp only [LogAll.step, Option.map_eq_some_iff] at hs
      obtain ⟨l', h1, rfl⟩ := hs
      simp only [Logger.step] at h1
      split at h1
      · cases h1
        intro u m n lv todo e msg hm
        have := ih u m n lv todo e msg hm
        simp only [since, List.take_succ_cons]
        exact .tail _ this
      · exact nomatch h1

/-- All files in the dictionary are open. -/
def AllOpen (s : St) : Prop := ∀ g b, s.files.lookup g = some b → b = true

theorem la_toFile (os : Os) (text : Bytes) (s : St) (g f : Bytes) (hf : f ≠ []) : ∃ t, (toFile os text s g).trace = s.trace ++ t ∧ (tried f t).Sublist (if g = f then [text] else []) ∧
    (Works os → AllOpen s → AllOpen (toFile os text s g) ∧ tried f t = if g = f then [text] else []) := by
  unfold toFile
  by_cases hg0 : g = []
  · subst hg0
    rw [if_neg (by simp), if_neg (fun e => hf e.symm)]
    exact ⟨[], by simp, List.Sublist.refl _, fun _ h => ⟨h, rfl⟩⟩
  rw [if_pos hg0]
  have he : ∃ t, (emplace os s g).trace = s.trace ++ t ∧ tried f t = [] ∧ (Works os → AllOpen s → AllOpen (emplace os s g) ∧ (emplace os s g).files.lookup g = some true) := by
    unfold emplace
    split
    · rename_i b e
      exact ⟨[], by simp, rfl, fun _ h => ⟨h, by rw [e, h g b e]⟩⟩
    · have key : ∀ (s' : St), s'.files = (g, true) :: s.files → AllOpen s → AllOpen s' ∧ s'.files.lookup g = some true := by
        intro s' e h
        refine ⟨fun g' b' h' => ?_, by rw [e, lf_lookup_cons, if_pos rfl]⟩
        rw [e, lf_lookup_cons] at h'
        by_cases e' : g' = g
        · rw [if_pos e'] at h'; cases h'; rfl
        · rw [if_neg e'] at h'; exact h g' b' h'
      by_cases h1 : g = b! "/dev/stdout"
      · rw [if_pos h1]; exact ⟨[], by simp, rfl, fun _ h => key _ rfl h⟩
      · rw [if_neg h1]
        by_cases h4 : g = b! "/dev/stderr"
        · rw [if_pos h4]; exact ⟨[], by simp, rfl, fun _ h => key _ rfl h⟩
        · rw [if_neg h4]
          exact ⟨[_], rfl, rfl, fun hw h => key _ (by simp [hw.1]) h⟩
  obtain ⟨t, h1, h2, h3⟩ := he
  dsimp only
  generalize emplace os s g = s1 at h1 h3
  by_cases hl : s1.files.lookup g = some true
  · rw [if_pos hl]
    have e : tried f (t ++ [.write g text (text.take (os.accepts s1.trace g text))]) = if g = f then [text] else [] := by
      rw [lf_tried_append, h2]
      by_cases hg : g = f <;> simp [tried, hg]
    exact ⟨t ++ [.write g text (text.take (os.accepts s1.trace g text))], by simp [h1], by rw [e]; exact List.Sublist.refl _, fun hw h => ⟨(h3 hw h).1, e⟩⟩
  · rw [if_neg hl]
    exact ⟨t, h1, by rw [h2]; exact List.nil_sublist _, fun hw h => absurd (h3 hw h).2 hl⟩

theorem la_writeAll (os : Os) (text : Bytes) (f : Bytes) (hf : f ≠ []) : ∀ (gs : List Bytes) (s : St), ∃ t, (gs.foldl (toFile os text) s).trace = s.trace ++ t ∧
    (tried f t).Sublist (List.replicate (gs.count f) text) ∧ (Works os → AllOpen s → AllOpen (gs.foldl (toFile os text) s) ∧ tried f t = List.replicate (gs.count f) text)
  | [], s => ⟨[], by simp, by simp [tried], fun _ h => ⟨h, by simp [tried]⟩⟩
  | g :: gs, s => by
    obtain ⟨t1, a1, a2, a3⟩ := la_toFile os text s g f hf
    obtain ⟨t2, b1, b2, b3⟩ := la_writeAll os text f hf gs (toFile os text s g)
    have e : List.replicate ((g :: gs).count f) text = (if g = f then [text] else []) ++ List.replicate (gs.count f) text := by
      by_cases hg : g = f
      · subst hg; rw [List.count_cons_self, List.replicate_succ, if_pos rfl]; rfl
      · rw [List.count_cons_of_ne (by simpa using hg), if_neg hg]; rfl
    refine ⟨t1 ++ t2, by rw [List.foldl_cons, b1, a1, List.append_assoc], ?_, fun hw h => ?_⟩
    · rw [lf_tried_append, e]; exact List.Sublist.append a2 b2
    · obtain ⟨c1, c2⟩ := a3 hw h
      obtain ⟨d1, d2⟩ := b3 hw c1
      exact ⟨d1, by rw [lf_tried_append, c2, d2, e]⟩

/-- What has been written. -/
structure OutInv (os : Os) (s : LogAll.Sys) (outs : List Out) : Prop where
  ids : outs.map (·.id) = Logger.written s.log.trace
  ok : ∀ o ∈ outs, o.Ok s
  «open» : Works os → AllOpen s.io
  sub : ∀ f, f ≠ [] → (tried f s.io.trace).Sublist (expected s.msgs f outs)
  all : Works os → ∀ f, f ≠ [] → tried f s.io.trace = expected s.msgs f outs
  events : ∀ e ∈ s.io.trace, match e with
    | .open f b => f ≠ [] ∧ (Works os → b = true) ∧ ∃ o ∈ outs, f ∈ o.level.files
    | .write f d a => f ≠ [] ∧ a <+: d ∧ (Works os → a = d) ∧ ∃ o ∈ outs, f ∈ o.level.files ∧ d = o.text s.msgs

theorem la_expected_congr {msgs msgs' : Nat → Log.Msg} (f : Bytes) : ∀ outs : List Out, (∀ o ∈ outs, msgs' o.id = msgs o.id) → expected msgs' f outs = expected msgs f outs
  | [], _ => rfl
  | o :: outs, h => by
    simp only [expected, Out.text]
    rw [h o (.head _), la_expected_congr f outs fun x hx => h x (.tail _ hx)]

theorem la_expected_append (msgs : Nat → Log.Msg) (f : Bytes) (a b : List Out) : expected msgs f (a ++ b) = expected msgs f a ++ expected msgs f b := by
  induction a with
  | nil => rfl
  | cons o a ih => simp [expected, ih]

theorem la_frame {os : Os} {s s' : LogAll.Sys} {outs : List Out} (h : OutInv os s outs) (hw : Logger.written s'.log.trace = Logger.written s.log.trace)
    (ht : ∀ e ∈ s.log.trace, e ∈ s'.log.trace) (hl : ∀ o ∈ outs, ∀ c ∈ s.loaded.take (since o.id s.log.trace + 1), c ∈ s'.loaded.take (since o.id s'.log.trace + 1)) (hio : s'.io.trace = s.io.trace) (hf : s'.io.files = s.io.files ∨ s'.io.files = [])
    (hm : ∀ o ∈ outs, s'.msgs o.id = s.msgs o.id) : OutInv os s' outs := by
  refine ⟨by rw [hw]; exact h.ids, fun o ho => ?_, fun hk => ?_, fun f h0 => ?_, fun hk f h0 => ?_, fun e he => ?_⟩
  · obtain ⟨k, c, h1, h2, h3⟩ := h.ok o ho
    exact ⟨k, c, ht _ h1, hl o ho c h2, h3⟩
  · intro g b hg
    rcases hf with hf | hf
    · rw [hf] at hg; exact h.open hk g b hg
    · rw [hf] at hg; exact nomatch hg
  · rw [hio, la_expected_congr f outs hm]; exact h.sub f h0
  · rw [hio, la_expected_congr f outs hm]; exact h.all hk f h0
  · rw [hio] at he
    have := h.events e he
    cases e with
    | «open» f b => exact this
    | write f d a =>
      obtain ⟨h1, h2, h3, o, h4, h5, h6⟩ := this
      exact ⟨h1, h2, h3, o, h4, h5, by rw [h6, Out.text, Out.text, hm o h4]⟩

theorem la_out {os : Os} {s : LogAll.Sys} (h : LogAll.Reachable os s) : ∃ outs, OutInv os s outs := by
  induction h with
  | init conf => exact ⟨[], rfl, fun o ho => (nomatch ho), fun _ g b hg => (nomatch hg), fun f _ => List.Sublist.refl _, fun _ f _ => rfl, fun e he => (nomatch he)⟩
  | @step w w' a hr hs ih =>
    obtain ⟨outs, ih⟩ := ih
    have hlog := la_logger hr
    have hinv := Logger.inv hlog
    have hconf := la_conf hr
    cases a with
    | enqueue l m =>
      simp only [LogAll.step, Option.map_eq_some_iff] at hs
      obtain ⟨l', h1, rfl⟩ := hs
      simp only [Logger.step] at h1
      split at h1
      · cases h1
        have key : ∀ o ∈ outs, o.id ≠ w.log.ids := by
          intro o ho
          have h2 : o.id ∈ Logger.written w.log.trace := by rw [← ih.ids]; exact List.mem_map.2 ⟨o, ho, rfl⟩
          have h3 := hinv.fresh o.id ((C51_written_in_order _ hlog).1.subset h2)
          omega
        refine ⟨outs, la_frame ih rfl (fun e he => .tail _ he) (fun o ho c hc => ?_) rfl (.inl rfl) fun o ho => Logger.upd_other _ _ (key o ho)⟩
        simpa [since, Ne.symm (key o ho)] using hc
      · exact nomatch h1
    | call t m =>
      simp only [LogAll.step, Option.map_eq_some_iff] at hs
      obtain ⟨l', h1, rfl⟩ := hs
      simp only [Logger.step] at h1
      split at h1
      · cases h1
        refine ⟨outs, la_frame ih ?_ (fun e he => ?_) (fun o _ c hc => ?_) rfl (.inl rfl) fun o ho => rfl⟩
        · dsimp only; split <;> rfl
        · dsimp only; split
          · exact .tail _ he
          · exact he
        · dsimp only; split
          · exact hc
          · exact hc
      · exact nomatch h1
    | go t time =>
      simp only [LogAll.step, Option.map_eq_some_iff] at hs
      obtain ⟨l', h1, rfl⟩ := hs
      simp only [Logger.step, Logger.go] at h1
      simp only [effect]
      have ret1 : ∀ m, Logger.written (Logger.ret w.log t m) = Logger.written w.log.trace := by
        intro m; unfold Logger.ret; split <;> rfl
      have ret2 : ∀ m, ∀ e ∈ w.log.trace, e ∈ Logger.ret w.log t m := by
        intro m e he; unfold Logger.ret; split
        · exact .tail _ he
        · exact he
      have ret3 : ∀ m id, since id (Logger.ret w.log t m) = since id w.log.trace := by
        intro m id; unfold Logger.ret; split <;> rfl
      cases hpc : w.log.pc t with
      | idle => rw [hpc] at h1; exact nomatch h1
      | entering m =>
        rw [hpc] at h1
        dsimp only at h1 ⊢
        split at h1
        · cases h1
          exact ⟨outs, la_frame ih rfl (fun e he => he) (fun _ _ c hc => hc) rfl (.inl rfl) fun o ho => rfl⟩
        · exact nomatch h1
      | locking m =>
        rw [hpc] at h1
        dsimp only at h1 ⊢
        split at h1
        · split at h1
          · cases h1
            exact ⟨outs, la_frame ih (ret1 m) (ret2 m) (fun _ _ c hc => by dsimp only; rw [ret3]; exact hc) rfl (.inl rfl) fun o ho => rfl⟩
          · cases h1
            exact ⟨outs, la_frame ih rfl (fun e he => he) (fun _ _ c hc => hc) rfl (.inl rfl) fun o ho => rfl⟩
        · exact nomatch h1
      | reading m n todo =>
        rw [hpc] at h1
        dsimp only at h1 ⊢
        cases h1
        exact ⟨outs, la_frame ih rfl (fun e he => he) (fun _ _ c hc => hc) rfl (.inl rfl) fun o ho => rfl⟩
      | writing m n lv todo =>
        rw [hpc] at h1
        obtain ⟨hh1, hh2⟩ := hconf.held t m n lv todo hpc
        cases todo with
        | nil =>
          dsimp only at h1 ⊢
          cases h1
          exact ⟨outs, la_frame ih (ret1 m) (ret2 m) (fun _ _ c hc => by dsimp only; rw [ret3]; exact hc) rfl (.inr rfl) fun o ho => rfl⟩
        | cons msg todo =>
          dsimp only at h1 ⊢
          cases h1
          have hlev : Logger.Ev.enqueued msg.id msg.level ∈ w.log.trace := by
            refine hinv.level msg (List.mem_append_left _ ?_)
            have := (hinv.slock t).2 (by rw [hpc]; rfl)
            simp only [Logger.flight, this, hpc, Logger.Pc.todo]
            exact .head _
          rcases Logger.handle_cases m n lv msg with h | h
          · rw [h]
            have hk : ∃ l, (w.held t)[msg.level]? = some l := by
              have : lv[msg.level]? ≠ none := by
                intro h0
                unfold Logger.handle at h
                cases m with
                | loop => rw [h0] at h; exact nomatch h
                | sync =>
                  dsimp only at h
                  rw [if_neg (by have := List.getElem?_eq_none_iff.1 h0; omega)] at h
                  exact nomatch h
              rw [hh2, flags, List.getElem?_map] at this
              cases e : (w.held t)[msg.level]? with
              | none => rw [e] at this; exact absurd rfl this
              | some l => exact ⟨l, rfl⟩
            obtain ⟨l, hk⟩ := hk
            simp only [hk]
            have hnew : ∀ x, Out.text w.msgs ⟨msg.id, l, time⟩ = x → Log.entry l.look time (w.msgs msg.id) = x := fun x h => h
            refine ⟨outs ++ [⟨msg.id, l, time⟩], ?_, ?_, ?_, ?_, ?_, ?_⟩
            · simp [Logger.written, ih.ids]
            · intro o ho
              rcases List.mem_append.1 ho with ho | ho
              · obtain ⟨k, c, h2, h3, h4⟩ := ih.ok o ho
                exact ⟨k, c, .tail _ h2, h3, h4⟩
              · cases List.mem_singleton.1 ho
                exact ⟨msg.level, w.held t, .tail _ hlev, la_new hr t m n lv _ hpc msg (.head _), hk⟩
            · intro hw
              exact ((la_writeAll os (Log.entry l.look time (w.msgs msg.id)) (b! "x") (by decide) l.files w.io).choose_spec.2.2 hw (ih.open hw)).1
            · intro f hf
              obtain ⟨t1, a1, a2, -⟩ := la_writeAll os (Log.entry l.look time (w.msgs msg.id)) f hf l.files w.io
              simp only [LogFiles.writeAll]
              rw [a1, lf_tried_append, la_expected_append]
              refine List.Sublist.append (ih.sub f hf) ?_
              simpa [expected, Out.text] using a2
            · intro hw f hf
              obtain ⟨t1, a1, -, a3⟩ := la_writeAll os (Log.entry l.look time (w.msgs msg.id)) f hf l.files w.io
              simp only [LogFiles.writeAll]
              rw [a1, lf_tried_append, la_expected_append, ih.all hw f hf, (a3 hw (ih.open hw)).2]
              simp [expected, Out.text]
            · intro e he
              obtain ⟨t1, a1, a2⟩ := lf_events os (fun e => match e with
                | .open f b => f ≠ [] ∧ (Works os → b = true) ∧ ∃ o ∈ outs ++ [⟨msg.id, l, time⟩], f ∈ o.level.files
                | .write f d a => f ≠ [] ∧ a <+: d ∧ (Works os → a = d) ∧ ∃ o ∈ outs ++ [⟨msg.id, l, time⟩], f ∈ o.level.files ∧ d = o.text w.msgs)
                [⟨l.files, Log.entry l.look time (w.msgs msg.id)⟩] w.io
                (fun f t hf ⟨x, hx, hx2⟩ => by
                  cases List.mem_singleton.1 hx
                  exact ⟨hf, fun hw => hw.1 t f, _, List.mem_append_right _ (.head _), hx2⟩)
                (fun x hx f hf h0 t => by
                  cases List.mem_singleton.1 hx
                  exact ⟨h0, List.take_prefix _ _, fun hw => List.take_of_length_le (hw.2 t f _), _, List.mem_append_right _ (.head _), hf, rfl⟩)
              simp only [List.foldl_cons, List.foldl_nil] at a1
              rw [a1] at he
              rcases List.mem_append.1 he with he | he
              · have := ih.events e he
                cases e with
                | «open» f b =>
                  obtain ⟨h1, h2, o, h3, h4⟩ := this
                  exact ⟨h1, h2, o, List.mem_append_left _ h3, h4⟩
                | write f d a =>
                  obtain ⟨h1, h2, h3, o, h4, h5⟩ := this
                  exact ⟨h1, h2, h3, o, List.mem_append_left _ h4, h5⟩
              · exact a2 e he
          · rw [h.1]
            dsimp only
            exact ⟨outs, la_frame ih rfl (fun e he => .tail _ he) (fun _ _ c hc => hc) rfl (.inl rfl) fun o ho => rfl⟩
    | reload conf =>
      simp only [LogAll.step, Option.map_eq_some_iff] at hs
      obtain ⟨l', h1, rfl⟩ := hs
      simp only [Logger.step] at h1
      split at h1
      · cases h1
        exact ⟨outs, la_frame ih rfl (fun e he => .tail _ he) (fun _ _ c hc => .tail _ hc) rfl (.inl rfl) fun o ho => rfl⟩
      · exact nomatch h1

theorem la_content {os : Os} {f : Bytes} : ∀ (t : List LogFiles.Ev), (∀ f d a, LogFiles.Ev.write f d a ∈ t → a = d) → content f t = (tried f t).flatten
  | [], _ => rfl
  | e :: t, h => by
    have ih := la_content (os := os) (f := f) t fun f d a ha => h f d a (.tail _ ha)
    cases e with
    | «open» g b => exact ih
    | write g d a =>
      cases h g d a (.head _)
      simp only [content, tried]
      split <;> simp [ih]

/-- C126: whatever threads do at the same time, and whatever the operating system does, what `write()` is called with for a file are entries of messages, in the order in which these were enqueued, each for
one message, and formatted with the properties of its level in a configuration that had been loaded, as often as the file is configured there, or less if the file cannot be opened. -/
theorem C126_in_order (os : Os) (s : LogAll.Sys) (h : LogAll.Reachable os s) : ∃ outs : List Out, (∀ o ∈ outs, o.Ok s) ∧ (outs.map (·.id)).Sublist (Logger.enqueued s.log.trace) ∧ (outs.map (·.id)).Nodup ∧
    (∀ f, f ≠ [] → (tried f s.io.trace).Sublist (expected s.msgs f outs)) ∧ ∀ f d a, .write f d a ∈ s.io.trace → f ≠ [] ∧ a <+: d ∧ ∃ o ∈ outs, f ∈ o.level.files ∧ d = o.text s.msgs := by
  obtain ⟨outs, ho⟩ := la_out h
  obtain ⟨h1, h2⟩ := C51_written_in_order _ (la_logger h)
  rw [← ho.ids] at h1 h2
  refine ⟨outs, ho.ok, h1, h2, ho.sub, fun f d a he => ?_⟩
  obtain ⟨a1, a2, -, a3⟩ := ho.events _ he
  exact ⟨a1, a2, a3⟩

/-- C126: if everything works, a file has precisely the entries of the messages that have been written, in the order in which they were enqueued. -/
theorem C126_content (os : Os) (hw : Works os) (s : LogAll.Sys) (h : LogAll.Reachable os s) : ∃ outs : List Out, (∀ o ∈ outs, o.Ok s) ∧ outs.map (·.id) = Logger.written s.log.trace ∧
    (outs.map (·.id)).Sublist (Logger.enqueued s.log.trace) ∧ ∀ f, f ≠ [] → content f s.io.trace = (expected s.msgs f outs).flatten := by
  obtain ⟨outs, ho⟩ := la_out h
  obtain ⟨h1, -⟩ := C51_written_in_order _ (la_logger h)
  rw [← ho.ids] at h1
  refine ⟨outs, ho.ok, ho.ids, h1, fun f hf => ?_⟩
  rw [la_content (os := os) _ fun f d a he => (ho.events _ he).2.2.1 hw, ho.all hw f hf]

theorem la_mem_written (id : Nat) : ∀ tr : List Logger.Ev, Logger.Ev.written id ∈ tr → id ∈ Logger.written tr
  | [], h => nomatch h
  | e :: tr, h => by
    rcases List.mem_cons.1 h with rfl | h
    · simp [Logger.written]
    · have := la_mem_written id tr h
      cases e with
      | written i => exact List.mem_append_left _ this
      | _ => exact this

theorem la_infix (msgs : Nat → Log.Msg) (f : Bytes) : ∀ (outs : List Out) (o : Out), o ∈ outs → f ∈ o.level.files → o.text msgs <:+: (expected msgs f outs).flatten
  | x :: outs, o, ho, hf => by
    rcases List.mem_cons.1 ho with rfl | ho
    · have : ∃ n, o.level.files.count f = n + 1 := ⟨_, (Nat.succ_pred_eq_of_pos (List.count_pos_iff.2 hf)).symm⟩
      obtain ⟨n, e⟩ := this
      refine ⟨[], (List.replicate n (o.text msgs)).flatten ++ (expected msgs f outs).flatten, ?_⟩
      rw [expected, e, List.replicate_succ]
      simp
    · obtain ⟨a, b, e⟩ := la_infix msgs f outs o ho hf
      refine ⟨(List.replicate (x.level.files.count f) (x.text msgs)).flatten ++ a, b, ?_⟩
      rw [expected, List.flatten_append, ← e]
      simp

/-- C126: when `synchronize()` returns, and everything works, then every message that had been enqueued when it was called, and whose level has never been expendable, is in each file which its level has in the
configuration that was in force when the message was enqueued, and in all that have been loaded since: the file has an entry of it, formatted with the properties of the level in one of these configurations. -/
theorem C126_synchronize (os : Os) (hw : Works os) (s : LogAll.Sys) (h : LogAll.Reachable os s) (t : Nat) (tr : List Logger.Ev) (hr : .returned t :: tr = s.log.trace) (id k : Nat)
    (hq : id ∈ Logger.before t tr) (hl : .enqueued id k ∈ s.log.trace) (f : Bytes) (hf : f ≠ []) (hk : ∀ conf ∈ s.loaded, ∃ l, conf[k]? = some l ∧ l.expendable = false)
    (hk2 : ∀ conf ∈ s.loaded.take (since id s.log.trace + 1), ∀ l, conf[k]? = some l → f ∈ l.files) :
    ∃ conf ∈ s.loaded.take (since id s.log.trace + 1), ∃ l time, conf[k]? = some l ∧ Log.entry l.look time (s.msgs id) <:+: content f s.io.trace := by
  have hlog := la_logger h
  have hwr := C51_synchronize s.log hlog t tr hr id k hq hl fun lv hlv => by
    obtain ⟨c, hc, e⟩ := (la_conf h).loaded lv hlv
    obtain ⟨l, h1, h2⟩ := hk c hc
    rw [e, flags, List.getElem?_map, h1]
    exact congrArg some h2
  obtain ⟨outs, h1, h2, -, h4⟩ := C126_content os hw s h
  have := la_mem_written id _ hwr
  rw [← h2] at this
  obtain ⟨o, ho, e⟩ := List.mem_map.1 this
  obtain ⟨k', conf, a1, a2, a3⟩ := h1 o ho
  rw [e] at a1 a2
  cases enqueued_level s.log hlog id k k' hl a1
  refine ⟨conf, a2, o.level, o.time, a3, ?_⟩
  rw [h4 f hf, ← e]
  exact la_infix s.msgs f outs o ho (hk2 conf a2 _ a3)

theorem la_closed {os : Os} {s : LogAll.Sys} (h : LogAll.Reachable os s) : s.log.slock = none → s.io.files = [] := by
  induction h with
  | init conf => intro _; rfl
  | @step w w' a hr hs ih =>
    have hinv := Logger.inv (la_logger hr)
    cases a with
    | enqueue l m =>
      simp only [LogAll.step, Option.map_eq_some_iff] at hs
      obtain ⟨l', h1, rfl⟩ := hs
      simp only [Logger.step] at h1
      split at h1
      · cases h1; exact ih
      · exact nomatch h1
    | call t m =>
      simp only [LogAll.step, Option.map_eq_some_iff] at hs
      obtain ⟨l', h1, rfl⟩ := hs
      simp only [Logger.step] at h1
      split at h1
      · cases h1; exact ih
      · exact nomatch h1
    | go t time =>
      simp only [LogAll.step, Option.map_eq_some_iff] at hs
      obtain ⟨l', h1, rfl⟩ := hs
      simp only [Logger.step, Logger.go] at h1
      simp only [effect]
      cases hpc : w.log.pc t with
      | idle => rw [hpc] at h1; exact nomatch h1
      | entering m =>
        rw [hpc] at h1
        dsimp only at h1 ⊢
        split at h1
        · cases h1; exact ih
        · exact nomatch h1
      | locking m =>
        rw [hpc] at h1
        dsimp only at h1 ⊢
        split at h1
        · split at h1
          · cases h1; exact ih
          · cases h1; intro h0; exact nomatch h0
        · exact nomatch h1
      | reading m n todo =>
        rw [hpc] at h1
        dsimp only at h1 ⊢
        cases h1
        exact ih
      | writing m n lv todo =>
        rw [hpc] at h1
        have hsl := (hinv.slock t).2 (by rw [hpc]; rfl)
        cases todo with
        | nil => dsimp only at h1 ⊢; cases h1; intro _; rfl
        | cons msg todo =>
          dsimp only at h1 ⊢
          cases h1
          intro h0
          dsimp only at h0
          rw [hsl] at h0
          exact nomatch h0
    | reload conf =>
      simp only [LogAll.step, Option.map_eq_some_iff] at hs
      obtain ⟨l', h1, rfl⟩ := hs
      simp only [Logger.step] at h1
      split at h1
      · cases h1; exact ih
      · exact nomatch h1

/-- C126: while no thread has messages in its hands, no log file is open; so every group of messages opens its files again, by their names, after these have been moved away. -/
theorem C126_closed (os : Os) (s : LogAll.Sys) (h : LogAll.Reachable os s) (hi : ∀ t, match s.log.pc t with
    | .reading _ _ _ => False
    | .writing _ _ _ _ => False
    | _ => True) : s.io.files = [] := by
  refine la_closed h ?_
  cases e : s.log.slock with
  | none => rfl
  | some t =>
    have h1 := ((Logger.inv (la_logger h)).slock t).1 e
    have h2 := hi t
    cases hpc : s.log.pc t with
    | reading _ _ _ => rw [hpc] at h2; exact h2.elim
    | writing _ _ _ _ => rw [hpc] at h2; exact h2.elim
    | _ => rw [hpc] at h1; exact nomatch h1

theorem logall_run_reachable (os : Os) (acts : List LogAll.Act) : ∀ {s s' : LogAll.Sys}, LogAll.Reachable os s → LogAll.run os s acts = some s' → LogAll.Reachable os s' := by
  induction acts with
  | nil => intro s s' hr h; cases h; exact hr
  | cons a acts ih =>
    intro s s' hr h
    simp only [LogAll.run] at h
    cases hs : LogAll.step os s a with
    | none => rw [hs] at h; exact nomatch h
    | some s1 => rw [hs] at h; exact ih (.step a hr hs) h

def logallConf (f : String) : List Level := [⟨⟨b! "[fatal]", []⟩, [b! "all", f.toUTF8.toList], false⟩, ⟨⟨b! "[error]", []⟩, [b! "all"], true⟩]

def logallTime (n : Nat) : Log.Time := ⟨2026, 11, 17, 12, 0, n, 0⟩

def logallMsg (text : Bytes) : Log.Msg := ⟨text, 7, b! "main", b! "f", b! "a.cpp", 3⟩

/-- Thread 7 is the logger thread.  A configuration is loaded between two messages of thread 8, which then calls `synchronize()`. -/
def logallDemo : List LogAll.Act :=
  [.enqueue 0 (logallMsg (b! "one")), .call 7 .loop, .go 7 (logallTime 0), .go 7 (logallTime 0), .go 7 (logallTime 0), .go 7 (logallTime 1), .go 7 (logallTime 1), .reload (logallConf "new"),
    .enqueue 1 (logallMsg (b! "two")), .enqueue 0 (logallMsg (b! "three")), .call 8 .sync, .go 8 (logallTime 2), .go 8 (logallTime 2), .go 8 (logallTime 2), .go 8 (logallTime 3), .go 8 (logallTime 4),
    .go 8 (logallTime 5)]

/-- Non-vacuity: the first message is in the file of the old configuration, the last one in that of the new configuration, and all are in the file of both; the hypotheses of `C126_synchronize` are met for the
last message, whose level has the file "new" since it was enqueued. -/
example : ∃ s, LogAll.run goodOs (LogAll.init (logallConf "old")) logallDemo = some s ∧ LogAll.Reachable goodOs s ∧ (∃ tr, .returned 8 :: tr = s.log.trace ∧ 2 ∈ Logger.before 8 tr) ∧
    .enqueued 2 0 ∈ s.log.trace ∧ since 0 s.log.trace = 1 ∧ since 2 s.log.trace = 0 ∧ (∀ conf ∈ s.loaded, ∃ l, conf[0]? = some l ∧ l.expendable = false) ∧
    (∀ conf ∈ s.loaded.take 1, ∀ l, conf[0]? = some l → b! "new" ∈ l.files) ∧
    content (b! "old") s.io.trace = Log.entry ⟨b! "[fatal]", []⟩ (logallTime 1) (logallMsg (b! "one")) ∧
    content (b! "new") s.io.trace = Log.entry ⟨b! "[fatal]", []⟩ (logallTime 4) (logallMsg (b! "three")) ∧
    content (b! "all") s.io.trace = Log.entry ⟨b! "[fatal]", []⟩ (logallTime 1) (logallMsg (b! "one")) ++ Log.entry ⟨b! "[error]", []⟩ (logallTime 3) (logallMsg (b! "two")) ++
      Log.entry ⟨b! "[fatal]", []⟩ (logallTime 4) (logallMsg (b! "three")) :=
  ⟨_, rfl, logall_run_reachable goodOs logallDemo (.init _) rfl, ⟨_, rfl, by decide⟩, by decide, by decide, by decide,
    fun conf hc => by
      rcases List.mem_cons.1 hc with rfl | hc
      · exact ⟨_, rfl, rfl⟩
      · cases List.mem_singleton.1 hc; exact ⟨_, rfl, rfl⟩,
    fun conf hc l hl => by
      cases List.mem_singleton.1 hc; cases hl; decide +kernel,
    by decide +kernel, by decide +kernel, by decide +kernel⟩

/-- Non-vacuity of `C126_closed`: at the end all threads are idle, although files have been opened. -/
example : ∃ s, LogAll.run goodOs (LogAll.init (logallConf "old")) logallDemo = some s ∧ (∀ t, s.log.pc t = .idle) ∧ .open (b! "new") true ∈ s.io.trace :=
  ⟨_, rfl, fun t => by
    by_cases h8 : t = 8
    · subst h8; rfl
    · by_cases h7 : t = 7
      · subst h7; rfl
      · simp [Logger.upd, LogAll.init, h7, h8], by decide +kernel⟩

end Verif.Props
