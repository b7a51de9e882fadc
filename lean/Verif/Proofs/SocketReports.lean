import Verif.Proofs.SocketNet
import Verif.Proofs.SocketInput
import Verif.Spec.SocketReports
namespace Verif.Socket
open Verif.EasyNet (In)

theorem WriteableFirst.tail {es tr : List Ev} (h : WriteableFirst (es ++ tr)) : WriteableFirst tr := fun a b e => h (es ++ a) b (by rw [e, List.append_assoc])
theorem ShutLater.tail {es tr : List Ev} (h : ShutLater (es ++ tr)) : ShutLater tr := fun a x b e => h (es ++ a) x b (by rw [e, List.append_assoc])

/-- The user has been told that the socket is open, or that it is closed. -/
def Known (tr : List Ev) : Prop := Ev.connected ∈ tr ∨ Ev.on_closed ∈ tr

theorem Known.append {es tr : List Ev} (h : Known tr) : Known (es ++ tr) := h.imp (fun h => by simp [h]) (fun h => by simp [h])

theorem ShutLater.head {e : Ev} {tr : List Ev} (h : ShutLater (e :: tr)) (he : e = .shut true ∨ ∃ g, e = .shutdown g) : Known tr := h [] e tr rfl he

structure Opening (s : Sys) : Prop where
  known : Known s.trace ∨ s.state = .pending
  quick : ∀ t, Frame.quick_store ∈ s.stk t → Known s.trace
  wrote : Ev.on_writeable ∈ s.trace → Known s.trace ∨ ∃ r, s.stk 0 = .wr_top :: r ∨ s.stk 0 = .wr_top_x :: r
  read : ∀ g ∈ s.stk 0, g.kind = .rd → Ev.on_readable ∈ s.trace

theorem advance_known {ssl s t f r o s'} (h : advance ssl s t f r o = some s') (hr : s.stk t = f :: r) (hi : Known s.trace ∨ s.state = .pending)
    (hq : ∀ t, Frame.quick_store ∈ s.stk t → Known s.trace) (hl : ShutLater s'.trace) : Known s'.trace ∨ s'.state = .pending := by
  obtain ⟨es, he⟩ := advance_trace h
  rcases hi with hi | hi
  · left; rw [he]; exact hi.append
  have hq := hq t
  rw [hr] at hq
  clear he
  adv h f <;> simp only [emit_trace, go_trace, emit_state, go_state] at * <;> first
    | exact .inr hi
    | exact .inl (hq List.mem_cons_self)
    | (left; simp [Known]; done)
    | (simp_all; done)
    | (left; exact (hl.head (.inl rfl)).append (es := [_]))
    | (split <;> exact .inr hi)

theorem advance_quickstore {ssl s t f r o s'} (h : advance ssl s t f r o = some s') (hr : s.stk t = f :: r)
    (hq : ∀ t, Frame.quick_store ∈ s.stk t → Known s.trace) (hl : ShutLater s'.trace) (hm : Frame.quick_store ∈ s'.stk t) : Known s'.trace := by
  obtain ⟨es, he⟩ := advance_trace h
  have hq := hq t
  rw [hr] at hq
  by_cases hr' : Frame.quick_store ∈ r
  · rw [he]; exact (hq (by simp [hr'])).append
  adv h f <;> simp [hr'] at hm <;> simp only [emit_trace, go_trace] at * <;> first
    | exact (hl.head (.inr ⟨_, rfl⟩)).append (es := [_])
    | (split at hm <;> simp_all; done)
    | (simp_all; done)

/-- `on_writeable` is reported by a step that then has `wr_top` to do. -/
theorem advance_wrote {ssl s t f r o s'} (h : advance ssl s t f r o = some s') (hr : s.stk t = f :: r) (hsh : Shape t (f :: r)) :
    (∃ es, s'.trace = es ++ s.trace ∧ Ev.on_writeable ∉ es) ∨ (t = 0 ∧ ∃ r, s'.stk 0 = .wr_top :: r) := by
  have hn : f.kind = .net → t = 0 := by
    intro hk
    have := hsh.1
    rw [hk] at this
    exact (place_net this).2
  adv h f <;> first
    | exact .inl ⟨[], rfl, List.not_mem_nil⟩ | (refine .inl ⟨[_], rfl, ?_⟩; simp; done) | (refine .inl ⟨[_, _], rfl, ?_⟩; simp; done)
    | (split <;> refine .inl ⟨[_], rfl, ?_⟩ <;> simp <;> done)
    | (obtain rfl := hn rfl; exact .inr ⟨rfl, _, by simp; rfl⟩)

/-- A step of a thread that has `wr_top` to do. -/
theorem advance_opening {ssl s t f r o s'} (h : advance ssl s t f r o = some s') (hf : f = .wr_top ∨ f = .wr_top_x)
    (hi : Known s.trace ∨ s.state = .pending) : Known s'.trace ∨ s'.stk t = .wr_top_x :: r := by
  obtain ⟨es, he⟩ := advance_trace h
  rcases hi with hi | hi
  · left; rw [he]; exact hi.append
  rcases hf with rfl | rfl <;> simp only [advance, hi, if_true] at h <;> cases h
  · right; simp
  · left; simp [Known]

theorem advance_rd {ssl s t f r o s'} (h : advance ssl s t f r o = some s') (hr : s.stk t = f :: r) (hi : ∀ g ∈ s.stk t, g.kind = .rd → Ev.on_readable ∈ s.trace) :
    ∀ g ∈ s'.stk t, g.kind = .rd → Ev.on_readable ∈ s'.trace := by
  obtain ⟨es, he⟩ := advance_trace h
  intro g hg hk
  by_cases hx : g ∈ r
  · rw [he]; exact List.mem_append.mpr (.inr (hi g (by rw [hr]; simp [hx]) hk))
  rw [hr] at hi
  have hi := hi f List.mem_cons_self
  adv h f <;> simp only [emit_stk, go_stk, if_true] at hg <;> first
    | (simp_all [Frame.kind]; done)
    | (simp [hx] at hg; subst hg; simp_all [Frame.kind]; done)
    | (simp [hx] at hg; rcases hg with rfl | rfl <;> simp_all [Frame.kind]; done)
    | (clear he; simp; done)
    | (split at hg <;> simp_all [Frame.kind]; done)

theorem opening {ssl s} (h : Reachable ssl s) (hw : WriteableFirst s.trace) (hl : ShutLater s.trace) : Opening s := by
  induction h with
  | init => exact ⟨.inr rfl, nofun, nofun, nofun⟩
  | @step s s' a hrch hs ih =>
    rcases step_cases hs with ⟨t, f, rfl, hm, hf⟩ | ⟨t, d, rfl, hm⟩ | ⟨t, f, r, o, hr, hwt, hadv⟩ | ⟨fl, h1, h2, h3, rfl⟩ | ⟨fl, n, h0, he, rfl⟩
    · have ih := ih hw hl
      refine ⟨ih.known, fun u hu => ?_, fun hx => ?_, fun g hg hk => ?_⟩
      · simp only [go_stk] at hu
        split at hu
        · rcases List.mem_cons.mp hu with rfl | hu
          · rcases hf with hf | hf <;> cases hf
          · exact ih.quick _ hu
        · exact ih.quick _ hu
      · rcases ih.wrote hx with h | ⟨r, h⟩
        · exact .inl h
        · right
          refine ⟨r, ?_⟩
          have : 0 ≠ t := by
            rintro rfl
            rcases hm with ⟨-, h, -⟩ | ⟨g, r', h', hc⟩
            · exact h rfl
            · rcases h with h | h <;> rw [h] at h' <;> cases h' <;> cases hc
          simpa [this] using h
      · simp only [go_stk] at hg
        split at hg
        · rename_i h0
          subst h0
          rcases List.mem_cons.mp hg with rfl | hg
          · rcases hf with rfl | rfl <;> cases hk
          · exact ih.read g hg hk
        · exact ih.read g hg hk
    · have ih := ih (hw.tail (es := [_])) (hl.tail (es := [_]))
      refine ⟨ih.known.imp (fun h => h.append (es := [_])) id, fun u hu => ?_, fun hx => ?_, fun g hg hk => ?_⟩
      · simp only [emit_stk, go_stk] at hu
        split at hu
        · rcases List.mem_cons.mp hu with hu | hu
          · cases hu
          · exact (ih.quick _ hu).append (es := [_])
        · exact (ih.quick _ hu).append (es := [_])
      · rcases ih.wrote (by simpa using hx) with h | ⟨r, h⟩
        · exact .inl (h.append (es := [_]))
        · right
          refine ⟨r, ?_⟩
          have : 0 ≠ t := by
            rintro rfl
            rcases hm with ⟨-, h, -⟩ | ⟨g, r', h', hc⟩
            · exact h rfl
            · rcases h with h | h <;> rw [h] at h' <;> cases h' <;> cases hc
          simpa [this] using h
      · simp only [emit_stk, go_stk] at hg
        rw [emit_trace]
        split at hg
        · rename_i h0
          subst h0
          rcases List.mem_cons.mp hg with rfl | hg
          · cases hk
          · exact List.mem_cons_of_mem _ (ih.read g hg hk)
        · exact List.mem_cons_of_mem _ (ih.read g hg hk)
    · obtain ⟨es, hes⟩ := advance_trace hadv
      have ih := ih (WriteableFirst.tail (es := es) (hes ▸ hw)) (ShutLater.tail (es := es) (hes ▸ hl))
      have hsh := shape hrch t
      rw [hr] at hsh
      obtain ⟨-, h2⟩ := advance_shape hadv hr hsh
      refine ⟨advance_known hadv hr ih.known ih.quick hl, fun u hu => ?_, fun hx => ?_, fun g hg hk => ?_⟩
      · by_cases hut : u = t
        · subst hut; exact advance_quickstore hadv hr ih.quick hl hu
        · rw [h2 u hut] at hu; rw [hes]; exact (ih.quick u hu).append
      · rcases advance_wrote hadv hr hsh with ⟨es', he', hn⟩ | ⟨-, r', h'⟩
        · have hx' : Ev.on_writeable ∈ s.trace := by rw [he'] at hx; exact (List.mem_append.mp hx).resolve_left hn
          rcases ih.wrote hx' with h | ⟨r', h⟩
          · left; rw [hes]; exact h.append
          · by_cases ht : t = 0
            · subst ht
              have hf : f = .wr_top ∨ f = .wr_top_x := by rw [hr] at h; rcases h with h | h <;> cases h <;> simp
              rcases advance_opening hadv hf ih.known with h | h
              · exact .inl h
              · exact .inr ⟨r, .inr h⟩
            · right; rw [h2 0 (fun h => ht h.symm)]; exact ⟨r', h⟩
        · exact .inr ⟨r', .inl h'⟩
      · by_cases ht : 0 = t
        · subst ht; exact advance_rd hadv hr ih.read g hg hk
        · rw [h2 0 ht] at hg; rw [hes]; exact List.mem_append.mpr (.inr (ih.read g hg hk))
    · exact ⟨(ih hw hl).known, (ih hw hl).quick, (ih hw hl).wrote, (ih hw hl).read⟩
    · have ih := ih hw hl
      refine ⟨ih.known, fun u hu => ?_, fun hx => ?_, fun g hg hk => ?_⟩
      · simp only [go_stk] at hu
        split at hu
        · simp at hu
        · exact ih.quick u hu
      · rcases ih.wrote hx with h | ⟨r, h⟩
        · exact .inl h
        · rw [h0] at h; simp at h
      · simp at hg; subst hg; cases hk

/-! ### What is told -/

/-- An event that tells the user nothing. -/
def Ev.silent (e : Ev) : Prop := told [] e = none

theorem advance_tells {ssl s t f r o s'} (h : advance ssl s t f r o = some s') (hr : s.stk t = f :: r) (hsh : Shape t (f :: r)) :
    (∃ es, s'.trace = es ++ s.trace ∧ ∀ e ∈ es, e.silent) ∨ s'.trace = .connected :: s.trace ∨ s'.trace = .on_closed :: s.trace ∨
    (t = 0 ∧ f = .rd_loop ∧ ((∃ d, d ≠ [] ∧ s'.trace = .stream d false :: .received d :: s.trace) ∨ s'.trace = .stream [] true :: s.trace)) := by
  have hn : f.kind = .rd → t = 0 := fun hk => (rd_stack hsh hk).1
  adv h f <;> first
    | exact .inl ⟨[], rfl, nofun⟩ | (refine .inl ⟨[_], rfl, ?_⟩; simp [Ev.silent, told]; done) | (refine .inl ⟨[_, _], rfl, ?_⟩; simp [Ev.silent, told]; done)
    | (split <;> refine .inl ⟨[_], rfl, ?_⟩ <;> simp [Ev.silent, told] <;> done)
    | exact .inr (.inl rfl) | exact .inr (.inr (.inl rfl))
    | exact .inr (.inr (.inr ⟨hn rfl, rfl, .inl ⟨_, ‹_›, rfl⟩⟩))
    | exact .inr (.inr (.inr ⟨hn rfl, rfl, .inr rfl⟩))

theorem told_silent {e : Ev} (r : Bytes) (h : e.silent) : told r e = none := by
  unfold Ev.silent at h
  cases e <;> simp_all [told]
  rename_i d b
  cases b <;> simp_all

theorem reports_cons (r : Bytes) (e : Ev) (tr : List Ev) : reports r (e :: tr) = reports r tr ++ (told r e).toList := by
  unfold reports
  rw [List.reverse_cons, List.filterMap_append]
  congr 1

theorem reports_silent (r : Bytes) {es tr : List Ev} (h : ∀ e ∈ es, e.silent) : reports r (es ++ tr) = reports r tr := by
  induction es with
  | nil => rfl
  | cons e es ih => rw [List.cons_append, reports_cons, ih (fun x hx => h x (List.mem_cons_of_mem _ hx)), told_silent r (h e List.mem_cons_self)]; simp

/-- The reports so far, as long as no closure is among them. -/
def Open (l : List In) : Prop := l = [] ∨ ∃ ds, l = .connected :: ds ∧ ∀ i ∈ ds, isData i

theorem connected_mem {r : Bytes} {tr : List Ev} : In.connected ∈ reports r tr ↔ Ev.connected ∈ tr := by
  unfold reports
  rw [List.mem_filterMap]
  constructor
  · rintro ⟨e, he, h⟩
    rw [List.mem_reverse] at he
    unfold told at h
    split at h <;> simp_all
  · intro h; exact ⟨_, List.mem_reverse.mpr h, rfl⟩

theorem closed_mem {r : Bytes} {tr : List Ev} : In.closed r ∈ reports r tr ↔ Ev.on_closed ∈ tr := by
  unfold reports
  rw [List.mem_filterMap]
  constructor
  · rintro ⟨e, he, h⟩
    rw [List.mem_reverse] at he
    unfold told at h
    split at h <;> simp_all
  · intro h; exact ⟨_, List.mem_reverse.mpr h, rfl⟩

theorem Open.data {l : List In} {i : In} (h : Open l) (hc : In.connected ∈ l) (hi : isData i) : Open (l ++ [i]) := by
  rcases h with rfl | ⟨ds, rfl, hd⟩
  · simp at hc
  · refine .inr ⟨ds ++ [i], by simp, fun x hx => ?_⟩
    rcases List.mem_append.mp hx with hx | hx
    · exact hd x hx
    · simp at hx; subst hx; exact hi

theorem ordered (r : Bytes) {ssl s} (h : Reachable ssl s) (hw : WriteableFirst s.trace) (hl : ShutLater s.trace) :
    ∃ l, Open l ∧ reports r s.trace = l ++ (if Ev.on_closed ∈ s.trace then [.closed r] else []) := by
  have hall := h
  induction h with
  | init => exact ⟨[], .inl rfl, rfl⟩
  | @step s s' a hrch hs ih =>
    have quiet : ∀ es, s'.trace = es ++ s.trace → (∀ e ∈ es, e.silent) → ∃ l, Open l ∧ reports r s'.trace = l ++ (if Ev.on_closed ∈ s'.trace then [.closed r] else []) := by
      intro es he hsil
      obtain ⟨l, h1, h2⟩ := ih (WriteableFirst.tail (es := es) (he ▸ hw)) (ShutLater.tail (es := es) (he ▸ hl)) hrch
      refine ⟨l, h1, ?_⟩
      rw [he, reports_silent r hsil, h2]
      have : Ev.on_closed ∈ es ++ s.trace ↔ Ev.on_closed ∈ s.trace := by
        rw [List.mem_append]
        refine ⟨fun h => h.resolve_left fun h => ?_, .inr⟩
        have := hsil _ h
        simp [Ev.silent, told] at this
      simp only [this]
    rcases step_cases hs with ⟨t, f, rfl, hm, hf⟩ | ⟨t, d, rfl, hm⟩ | ⟨t, f, r', o, hr, hwt, hadv⟩ | ⟨fl, h1, h2, h3, rfl⟩ | ⟨fl, n, h0, he, rfl⟩
    · exact quiet [] rfl nofun
    · exact quiet [_] rfl (by simp [Ev.silent, told])
    · have hsh := shape hrch t
      rw [hr] at hsh
      have fin := (closed hall).final
      have nocl : ∀ e tr, e.isCallback = true → s'.trace = e :: tr → Ev.on_closed ∉ tr := by
        intro e tr hc he hx
        obtain ⟨x, y, rfl⟩ := List.append_of_mem hx
        have := fin (e :: x) y (by rw [he]; rfl) e List.mem_cons_self
        rw [hc] at this; cases this
      rcases advance_tells hadv hr hsh with ⟨es, he, hsil⟩ | he | he | ⟨rfl, rfl, he⟩
      · exact quiet es he hsil
      · obtain ⟨l, h1, h2⟩ := ih (WriteableFirst.tail (es := [_]) (he ▸ hw)) (ShutLater.tail (es := [_]) (he ▸ hl)) hrch
        have hnc := nocl _ _ rfl he
        rw [if_neg hnc, List.append_nil] at h2
        have hone := (connected_once hall).1
        rw [he, List.count_cons_self] at hone
        have hnm : Ev.connected ∉ s.trace := List.count_eq_zero.mp (by omega)
        rw [← connected_mem (r := r), h2] at hnm
        rcases h1 with rfl | ⟨ds, rfl, -⟩
        · refine ⟨[.connected], .inr ⟨[], rfl, nofun⟩, ?_⟩
          rw [he, reports_cons, h2]
          simp [told, hnc]
        · exact absurd List.mem_cons_self hnm
      · obtain ⟨l, h1, h2⟩ := ih (WriteableFirst.tail (es := [_]) (he ▸ hw)) (ShutLater.tail (es := [_]) (he ▸ hl)) hrch
        have hnc := nocl _ _ rfl he
        rw [if_neg hnc, List.append_nil] at h2
        refine ⟨l, h1, ?_⟩
        rw [he, reports_cons, h2]
        simp [told]
      · have key : ∀ es, s'.trace = es ++ s.trace → Ev.connected ∈ s.trace := by
          intro es he
          have hw' := WriteableFirst.tail (es := es) (he ▸ hw)
          have op := opening hrch hw' (ShutLater.tail (es := es) (he ▸ hl))
          have hrd := op.read .rd_loop (by rw [hr]; simp) rfl
          obtain ⟨x, y, hxy⟩ := List.append_of_mem hrd
          have hwr : Ev.on_writeable ∈ s.trace := by rw [hxy]; simp [hw' x y hxy]
          rcases op.wrote hwr with (h | h) | ⟨r'', h⟩
          · exact h
          · have := ((closed hrch).after h).2.2 .rd_loop (by rw [hr]; simp)
            cases this
          · rw [hr] at h; rcases h with h | h <;> cases h
        rcases he with ⟨d, hd, he⟩ | he
        · obtain ⟨l, h1, h2⟩ := ih (WriteableFirst.tail (es := [_, _]) (he ▸ hw)) (ShutLater.tail (es := [_, _]) (he ▸ hl)) hrch
          have hnc : Ev.on_closed ∉ s.trace := fun h => nocl _ _ rfl he (by simp [h])
          rw [if_neg hnc, List.append_nil] at h2
          have hk := key [_, _] he
          rw [← connected_mem (r := r), h2] at hk
          refine ⟨l ++ [.read d], h1.data (i := .read d) hk hd, ?_⟩
          rw [he, reports_cons, reports_cons, h2]
          simp [told, hnc]
        · obtain ⟨l, h1, h2⟩ := ih (WriteableFirst.tail (es := [_]) (he ▸ hw)) (ShutLater.tail (es := [_]) (he ▸ hl)) hrch
          have hnc : Ev.on_closed ∉ s.trace := nocl _ _ rfl he
          rw [if_neg hnc, List.append_nil] at h2
          have hk := key [_] he
          rw [← connected_mem (r := r), h2] at hk
          refine ⟨l ++ [.eof], h1.data (i := .eof) hk trivial, ?_⟩
          rw [he, reports_cons, h2]
          simp [told, hnc]
    · exact quiet [] rfl nofun
    · exact quiet [] rfl nofun

end Verif.Socket
