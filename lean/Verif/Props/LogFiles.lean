import Verif.Spec.LogFiles
import Verif.Props.LogEntry
/-!
# C125: log files
-/
namespace Verif.Props
open Verif.LogFiles

theorem lf_content_append (f : Bytes) (a b : List LogFiles.Ev) : content f (a ++ b) = content f a ++ content f b := by
  induction a with
  | nil => rfl
  | cons e a ih => cases e <;> simp only [List.cons_append, content, ih]; split <;> simp

theorem lf_tried_append (f : Bytes) (a b : List LogFiles.Ev) : tried f (a ++ b) = tried f a ++ tried f b := by
  induction a with
  | nil => rfl
  | cons e a ih => cases e <;> simp only [List.cons_append, tried, ih]; split <;> simp

theorem lf_openings_append (f : Bytes) (a b : List LogFiles.Ev) : openings f (a ++ b) = openings f a + openings f b := by
  simp only [openings, List.count_append]; omega

/-- The files of a batch, in relation to what has been done since its begin.  `n` of `ts` are the texts that were meant for `f` so far. -/
structure BatchInv (f : Bytes) (t0 : List LogFiles.Ev) (s : St) (texts : List Bytes) (t : List LogFiles.Ev) : Prop where
  trace : s.trace = t0 ++ t
  absent : s.files.lookup f = none → tried f t = [] ∧ openings f t = 0 ∧ texts = []
  present : ∀ b, s.files.lookup f = some b → tried f t = (if b then texts else []) ∧ openings f t ≤ 1 ∧
    (openings f t = 0 → f = b! "/dev/stdout" ∨ f = b! "/dev/stderr") ∧ (b = false → .open f false ∈ t) ∧ (b = true → f ≠ b! "/dev/stdout" → f ≠ b! "/dev/stderr" → .open f true ∈ t)

theorem lf_lookup_cons {f g : Bytes} {b : Bool} {l : List (Bytes × Bool)} : ((g, b) :: l).lookup f = if f = g then some b else l.lookup f := by
  simp only [List.lookup]
  by_cases h : f = g
  · subst h; simp
  · have : (f == g) = false := by simp [h]
    simp [this, h]

theorem lf_emplace (os : Os) {f : Bytes} {t0 : List LogFiles.Ev} {s : St} {texts : List Bytes} {t : List LogFiles.Ev} (h : BatchInv f t0 s texts t) (g : Bytes) :
    ∃ t', BatchInv f t0 (emplace os s g) texts t' ∧ ((emplace os s g).files.lookup g).isSome := by
  unfold emplace
  split
  · rename_i b e; exact ⟨t, h, by rw [e]; rfl⟩
  · rename_i e
    by_cases hg : f = g
    · subst hg
      obtain ⟨a1, a2, a3⟩ := h.absent e
      by_cases h1 : f = b! "/dev/stdout"
      · rw [if_pos h1]
        refine ⟨t, ⟨h.trace, ?_, ?_⟩, by simp [lf_lookup_cons]⟩
        · intro h2; rw [lf_lookup_cons, if_pos rfl] at h2; cases h2
        · intro b h2
          rw [lf_lookup_cons, if_pos rfl] at h2
          cases h2
          exact ⟨by rw [a1, a3]; rfl, by omega, fun _ => .inl h1, (by simp), fun _ h3 => absurd h1 h3⟩
      · rw [if_neg h1]
        by_cases h4 : f = b! "/dev/stderr"
        · rw [if_pos h4]
          refine ⟨t, ⟨h.trace, ?_, ?_⟩, by simp [lf_lookup_cons]⟩
          · intro h2; rw [lf_lookup_cons, if_pos rfl] at h2; cases h2
          · intro b h2
            rw [lf_lookup_cons, if_pos rfl] at h2
            cases h2
            exact ⟨by rw [a1, a3]; rfl, by omega, fun _ => .inr h4, (by simp), fun _ _ h3 => absurd h4 h3⟩
        · rw [if_neg h4]
          refine ⟨t ++ [.open f (os.opens s.trace f)], ⟨by simp [h.trace], ?_, ?_⟩, by simp [lf_lookup_cons]⟩
          · intro h2; rw [lf_lookup_cons, if_pos rfl] at h2; cases h2
          · intro b h2
            rw [lf_lookup_cons, if_pos rfl] at h2
            simp only [Option.some.injEq] at h2
            have e1 : openings f [.open f (os.opens s.trace f)] = 1 := by unfold openings; cases os.opens s.trace f <;> simp
            refine ⟨?_, ?_, ?_, ?_, ?_⟩
            · rw [lf_tried_append, a1, a3]; simp [tried]
            · rw [lf_openings_append, a2, e1]; omega
            · rw [lf_openings_append, a2, e1]; intro h5; omega
            · intro hb; rw [h2, hb]; simp
            · intro hb _ _; rw [h2, hb]; simp
    · have key : ∀ (files : List (Bytes × Bool)) (b : Bool) (x : List LogFiles.Ev), files = (g, b) :: s.files → (∀ e ∈ x, ∃ b, e = .open g b) →
          BatchInv f t0 { files := files, trace := s.trace ++ x } texts (t ++ x) := by
        intro files b x hf hx
        subst hf
        have hx1 : tried f x = [] ∧ openings f x = 0 := by
          clear h
          induction x with
          | nil => exact ⟨rfl, rfl⟩
          | cons y x ih =>
            obtain ⟨c, rfl⟩ := hx y (.head _)
            obtain ⟨i1, i2⟩ := ih fun e he => hx e (.tail _ he)
            refine ⟨i1, ?_⟩
            have : openings f [.open g c] = 0 := by
              unfold openings
              have h1 : (LogFiles.Ev.open g c == .open f true) = false := by simp; intro h; exact absurd h.symm hg
              have h2 : (LogFiles.Ev.open g c == .open f false) = false := by simp; intro h; exact absurd h.symm hg
              simp [List.count_cons, h1, h2]
            rw [show (LogFiles.Ev.open g c :: x) = [.open g c] ++ x from rfl, lf_openings_append, this, i2]
        refine ⟨by simp [h.trace], ?_, ?_⟩
        · intro h2
          rw [lf_lookup_cons, if_neg hg] at h2
          obtain ⟨a1, a2, a3⟩ := h.absent h2
          exact ⟨by rw [lf_tried_append, a1, hx1.1]; rfl, by rw [lf_openings_append, a2, hx1.2], a3⟩
        · intro b h2
          rw [lf_lookup_cons, if_neg hg] at h2
          obtain ⟨a1, a2, a3, a4, a5⟩ := h.present b h2
          refine ⟨by rw [lf_tried_append, a1, hx1.1, List.append_nil], by rw [lf_openings_append, hx1.2]; exact a2, ?_, ?_, ?_⟩
          · rw [lf_openings_append, hx1.2]; exact a3
          · intro hb; exact List.mem_append_left _ (a4 hb)
          · intro hb h3 h4; exact List.mem_append_left _ (a5 hb h3 h4)
      by_cases h1 : g = b! "/dev/stdout"
      · rw [if_pos h1]
        have := key _ true [] rfl (by simp)
        rw [List.append_nil, List.append_nil] at this
        exact ⟨t, this, by simp [lf_lookup_cons]⟩
      · rw [if_neg h1]
        by_cases h4 : g = b! "/dev/stderr"
        · rw [if_pos h4]
          have := key _ true [] rfl (by simp)
          rw [List.append_nil, List.append_nil] at this
          exact ⟨t, this, by simp [lf_lookup_cons]⟩
        · rw [if_neg h4]
          exact ⟨_, key _ _ [.open g (os.opens s.trace g)] rfl (by simp), by simp [lf_lookup_cons]⟩

theorem lf_toFile (os : Os) {f : Bytes} {t0 : List LogFiles.Ev} {s : St} {texts : List Bytes} {t : List LogFiles.Ev} (hf : f ≠ []) (h : BatchInv f t0 s texts t) (text g : Bytes) :
    ∃ t', BatchInv f t0 (toFile os text s g) (if g = f then texts ++ [text] else texts) t' := by
  unfold toFile
  by_cases hg0 : g = []
  · subst hg0
    rw [if_neg (by simp), if_neg (fun e => hf e.symm)]
    exact ⟨t, h⟩
  rw [if_pos hg0]
  obtain ⟨t', h', hs⟩ := lf_emplace os h g
  dsimp only
  generalize emplace os s g = s1 at h' hs
  by_cases hl : s1.files.lookup g = some true
  · rw [if_pos hl]
    refine ⟨t' ++ [.write g text (text.take (os.accepts s1.trace g text))], ⟨by simp [h'.trace], ?_, ?_⟩⟩
    · intro h2
      by_cases hg : g = f
      · subst hg; rw [h2] at hl; cases hl
      · rw [if_neg hg]
        obtain ⟨a1, a2, a3⟩ := h'.absent h2
        exact ⟨by rw [lf_tried_append, a1]; simp [tried, hg], by rw [lf_openings_append, a2]; simp [openings], a3⟩
    · intro b h2
      obtain ⟨a1, a2, a3, a4, a5⟩ := h'.present b h2
      have e0 : openings f [LogFiles.Ev.write g text (text.take (os.accepts s1.trace g text))] = 0 := by simp [openings]
      refine ⟨?_, by rw [lf_openings_append, e0]; exact a2, by rw [lf_openings_append, e0]; exact a3, fun hb => List.mem_append_left _ (a4 hb), fun hb h3 h4 => List.mem_append_left _ (a5 hb h3 h4)⟩
      rw [lf_tried_append, a1]
      by_cases hg : g = f
      · subst hg
        rw [hl] at h2
        cases h2
        simp [tried]
      · rw [if_neg hg]; simp [tried, hg]
  · rw [if_neg hl]
    refine ⟨t', ⟨h'.trace, ?_, ?_⟩⟩
    · intro h2
      by_cases hg : g = f
      · subst hg; rw [h2] at hs; cases hs
      · rw [if_neg hg]; exact h'.absent h2
    · intro b h2
      obtain ⟨a1, a2⟩ := h'.present b h2
      refine ⟨?_, a2⟩
      by_cases hg : g = f
      · subst hg
        cases b with
        | true => exact absurd h2 hl
        | false => exact a1
      · rw [if_neg hg]; exact a1

theorem lf_writeAll (os : Os) {f : Bytes} {t0 : List LogFiles.Ev} (hf : f ≠ []) (text : Bytes) : ∀ (gs : List Bytes) {s : St} {texts : List Bytes} {t : List LogFiles.Ev}, BatchInv f t0 s texts t →
    ∃ t', BatchInv f t0 (gs.foldl (toFile os text) s) (texts ++ List.replicate (gs.count f) text) t'
  | [], _, texts, t, h => ⟨t, by simpa using h⟩
  | g :: gs, s, texts, t, h => by
    obtain ⟨t1, h1⟩ := lf_toFile os hf h text g
    obtain ⟨t2, h2⟩ := lf_writeAll os hf text gs h1
    refine ⟨t2, ?_⟩
    rw [List.foldl_cons]
    by_cases hg : g = f
    · subst hg
      rw [if_pos rfl] at h2
      rw [List.count_cons_self, List.replicate_succ, ← List.singleton_append, ← List.append_assoc]
      exact h2
    · rw [if_neg hg] at h2
      rw [List.count_cons_of_ne (by simpa using hg)]
      exact h2

theorem lf_batch (os : Os) {f : Bytes} {t0 : List LogFiles.Ev} (hf : f ≠ []) : ∀ (ms : List LogFiles.Msg) {s : St} {texts : List Bytes} {t : List LogFiles.Ev}, BatchInv f t0 s texts t →
    ∃ t', BatchInv f t0 (ms.foldl (writeAll os) s) (texts ++ meant f ms) t'
  | [], _, texts, t, h => ⟨t, by simpa [meant] using h⟩
  | m :: ms, s, texts, t, h => by
    obtain ⟨t1, h1⟩ := lf_writeAll os hf m.text m.files h
    obtain ⟨t2, h2⟩ := lf_batch os hf ms h1
    refine ⟨t2, ?_⟩
    rw [List.foldl_cons, meant, ← List.append_assoc]
    exact h2

/-- C125: in a batch, a file is opened at most once; if it can be opened, all texts that are meant for it are written to it, in order, each as often as the file is configured, and nothing else; and if it cannot
be opened, nothing is written to it.  Standard streams need not be opened. -/
theorem C125_batch (os : Os) (t0 : List LogFiles.Ev) (ms : List LogFiles.Msg) (f : Bytes) (hf : f ≠ []) :
    ∃ t, batch os t0 ms = t0 ++ t ∧ openings f t ≤ 1 ∧
      (tried f t = meant f ms ∨ tried f t = [] ∧ .open f false ∈ t) ∧
      (meant f ms ≠ [] → openings f t = 0 → f = b! "/dev/stdout" ∨ f = b! "/dev/stderr") := by
  obtain ⟨t, h⟩ := lf_batch os hf ms (show BatchInv f t0 { trace := t0 } [] [] from ⟨by simp, fun _ => ⟨rfl, rfl, rfl⟩, fun b h => by simp at h⟩)
  refine ⟨t, h.trace, ?_⟩
  rw [List.nil_append] at h
  cases hl : (ms.foldl (writeAll os) { trace := t0 }).files.lookup f with
  | none =>
    obtain ⟨a1, a2, a3⟩ := h.absent hl
    exact ⟨by omega, .inl (by rw [a1, a3]), fun h0 => absurd a3 h0⟩
  | some b =>
    obtain ⟨a1, a2, a3, a4, a5⟩ := h.present b hl
    refine ⟨a2, ?_, fun _ => a3⟩
    cases b with
    | true => exact .inl (by simpa using a1)
    | false => exact .inr ⟨by simpa using a1, a4 rfl⟩

/-- The history has grown by such events. -/
def Grew (P : LogFiles.Ev → Prop) (s s' : St) : Prop := ∃ t, s'.trace = s.trace ++ t ∧ ∀ e ∈ t, P e

theorem Grew.refl (P : LogFiles.Ev → Prop) (s : St) : Grew P s s := ⟨[], by simp, by simp⟩

theorem Grew.trans {P : LogFiles.Ev → Prop} {a b c : St} (h : Grew P a b) (h' : Grew P b c) : Grew P a c := by
  obtain ⟨t, h1, h2⟩ := h
  obtain ⟨t', h3, h4⟩ := h'
  refine ⟨t ++ t', by rw [h3, h1, List.append_assoc], fun e he => ?_⟩
  rcases List.mem_append.mp he with he | he
  · exact h2 e he
  · exact h4 e he

theorem Grew.one {P : LogFiles.Ev → Prop} {s s' : St} {e : LogFiles.Ev} (h : s'.trace = s.trace ++ [e]) (he : P e) : Grew P s s' := ⟨[e], h, by simpa using he⟩

/-- What the events are, whatever the operating system does. -/
theorem lf_events (os : Os) (P : LogFiles.Ev → Prop) : ∀ (ms : List LogFiles.Msg) (s : St),
    (∀ f t, f ≠ [] → (∃ m ∈ ms, f ∈ m.files) → P (.open f (os.opens t f))) → (∀ m ∈ ms, ∀ f ∈ m.files, f ≠ [] → ∀ t, P (.write f m.text (m.text.take (os.accepts t f m.text)))) →
    Grew P s (ms.foldl (writeAll os) s) := by
  intro ms
  induction ms with
  | nil => intro s _ _; exact .refl P s
  | cons m ms ih =>
    intro s h2 h3
    rw [List.foldl_cons]
    refine Grew.trans ?_ (ih _ (fun f t hf ⟨x, hx, hm⟩ => h2 f t hf ⟨x, .tail _ hx, hm⟩) (fun x hx => h3 x (.tail _ hx)))
    have key : ∀ (gs : List Bytes) (s : St), (∀ g ∈ gs, g ∈ m.files) → Grew P s (gs.foldl (toFile os m.text) s) := by
      intro gs
      induction gs with
      | nil => intro s _; exact .refl P s
      | cons g gs ihg =>
        intro s hg
        rw [List.foldl_cons]
        refine Grew.trans ?_ (ihg _ (fun x hx => hg x (.tail _ hx)))
        unfold toFile
        by_cases hg0 : g = []
        · rw [if_neg (by simp [hg0])]; exact .refl P s
        rw [if_pos hg0]
        have he : Grew P s (emplace os s g) := by
          unfold emplace
          split
          · exact .refl P s
          · by_cases h1 : g = b! "/dev/stdout"
            · rw [if_pos h1]; exact ⟨[], by simp, by simp⟩
            · rw [if_neg h1]
              by_cases h4 : g = b! "/dev/stderr"
              · rw [if_pos h4]; exact ⟨[], by simp, by simp⟩
              · rw [if_neg h4]
                exact .one rfl (h2 g _ hg0 ⟨m, .head _, hg g (.head _)⟩)
        refine he.trans ?_
        dsimp only
        generalize emplace os s g = s1
        split
        · exact .one rfl (h3 m (.head _) g (hg g (.head _)) hg0 _)
        · exact .refl P s1
    exact key m.files s (fun _ h => h)

/-- C125: whatever the operating system does, no file is opened or written to, other than those that are configured for a message; and what gets into a file is a beginning of the text of a message. -/
theorem C125_only (os : Os) (ms : List LogFiles.Msg) :
    (∀ f b, .open f b ∈ batch os [] ms → f ≠ [] ∧ ∃ m ∈ ms, f ∈ m.files) ∧
    ∀ f d a, .write f d a ∈ batch os [] ms → f ≠ [] ∧ a <+: d ∧ ∃ m ∈ ms, m.text = d ∧ f ∈ m.files := by
  obtain ⟨t, ht, h⟩ := lf_events os (fun e => match e with
    | .open f _ => f ≠ [] ∧ ∃ m ∈ ms, f ∈ m.files
    | .write f d a => f ≠ [] ∧ a <+: d ∧ ∃ m ∈ ms, m.text = d ∧ f ∈ m.files) ms {} (fun f t hf hm => ⟨hf, hm⟩) (fun m hm f hf h0 t => ⟨h0, List.take_prefix _ _, m, hm, rfl, hf⟩)
  have e : batch os [] ms = t := ht
  rw [e]
  exact ⟨fun f b hb => h _ hb, fun f d a hb => h _ hb⟩

/-- C125: when everything works, a file has the entries of all messages that are meant for it, complete and in order. -/
theorem C125_complete (os : Os) (hw : Works os) (f : Bytes) (hf : f ≠ []) : ∀ (bs : List (List LogFiles.Msg)) (t0 : List LogFiles.Ev),
    content f (batches os t0 bs) = content f t0 ++ (meant f bs.flatten).flatten
  | [], t0 => by simp [batches, meant]
  | ms :: bs, t0 => by
    have hm : ∀ a b : List LogFiles.Msg, meant f (a ++ b) = meant f a ++ meant f b := by
      intro a b
      induction a with
      | nil => rfl
      | cons x a ih => simp [meant, ih]
    have ih := C125_complete os hw f hf bs (batch os t0 ms)
    show content f (batches os (batch os t0 ms) bs) = _
    rw [ih, List.flatten_cons, hm, List.flatten_append, ← List.append_assoc]
    congr 1
    obtain ⟨t, ht, -, h2, -⟩ := C125_batch os t0 ms f hf
    obtain ⟨t', ht', hnew⟩ := lf_events os (fun e => match e with
      | .open _ b => b = true
      | .write _ d a => a = d) ms { trace := t0 } (fun f t _ _ => hw.1 t f) (fun m _ f _ _ t => List.take_of_length_le (hw.2 t f m.text))
    have e : t' = t := List.append_cancel_left (ht'.symm.trans ht)
    subst e
    have hall : ∀ (x : List LogFiles.Ev), (∀ e ∈ x, match e with
      | .open _ b => b = true
      | .write _ d a => a = d) → content f x = (tried f x).flatten := by
      intro x
      induction x with
      | nil => intro _; rfl
      | cons y x ih =>
        intro h
        have h1 := ih fun e he => h e (.tail _ he)
        have h2 := h y (.head _)
        cases y with
        | «open» g b => exact h1
        | write g d a =>
          have h2 : a = d := h2
          subst h2
          simp only [content, tried]
          split <;> simp [h1]
    rw [ht, lf_content_append, hall t' hnew]
    congr 2
    rcases h2 with h2 | ⟨-, h2⟩
    · exact h2
    · exact absurd (hnew _ h2) (by simp)

/-- C125: as entries have one line feed each, at their ends, the number of lines that are added to a file is the number of messages, and every entry begins on a line of its own.  PARTIAL: everything has to work, see `C125_torn`. -/
theorem C125_lines_partial (os : Os) (hw : Works os) (f : Bytes) (hf : f ≠ []) (bs : List (List LogFiles.Msg))
    (hb : ∀ ms ∈ bs, ∀ m ∈ ms, ∃ (l : Log.Level) (t : Log.Time) (x : Log.Msg), Log.Plain l x ∧ m.text = Log.entry l t x) :
    (content f (batches os [] bs)).count 10 = (meant f bs.flatten).length ∧ ∀ (a : Bytes) (c : Byte), content f (batches os [] bs) = a ++ [c] → c = 10 := by
  have h := C125_complete os hw f hf bs []
  simp only [content, List.nil_append] at h
  rw [h]
  have hl : ∀ d ∈ meant f bs.flatten, ∃ body, d = body ++ [10] ∧ (10 : Byte) ∉ body := by
    have : ∀ ms : List LogFiles.Msg, (∀ m ∈ ms, ∃ body, m.text = body ++ [10] ∧ (10 : Byte) ∉ body) → ∀ d ∈ meant f ms, ∃ body, d = body ++ [10] ∧ (10 : Byte) ∉ body := by
      intro ms
      induction ms with
      | nil => intro _ d hd; cases hd
      | cons m ms ih =>
        intro h d hd
        rcases List.mem_append.mp hd with hd | hd
        · rw [(List.mem_replicate.mp hd).2]; exact h m (.head _)
        · exact ih (fun x hx => h x (.tail _ hx)) d hd
    refine this _ fun m hm => ?_
    obtain ⟨ms, h1, h2⟩ := List.mem_flatten.mp hm
    obtain ⟨l, t, x, hp, e⟩ := hb ms h1 m h2
    rw [e]
    exact C50_one_line l t x hp
  generalize meant f bs.flatten = ds at hl
  clear h
  induction ds with
  | nil => exact ⟨rfl, fun a c e => by simp at e⟩
  | cons d ds ih =>
    obtain ⟨body, e, hn⟩ := hl d (.head _)
    obtain ⟨i1, i2⟩ := ih fun x hx => hl x (.tail _ hx)
    refine ⟨?_, fun a c e2 => ?_⟩
    · rw [List.flatten_cons, List.count_append, i1, e, List.count_append, List.count_eq_zero.mpr hn]
      simp; omega
    · rw [List.flatten_cons] at e2
      by_cases h0 : ds.flatten = []
      · rw [h0, List.append_nil, e] at e2
        have := (List.append_inj' e2 rfl).2
        simp only [List.cons.injEq, and_true] at this
        exact this.symm
      · have hd := List.dropLast_concat_getLast h0
        have hg := i2 _ _ hd.symm
        rw [← hd, ← List.append_assoc] at e2
        have := (List.append_inj' e2 rfl).2
        simp only [List.cons.injEq, and_true] at this
        rw [← this]; exact hg

/-- An operating system where everything works. -/
def goodOs : Os := ⟨fun _ _ => true, fun _ _ d => d.length⟩

/-- Non-vacuity: two levels, two batches; one file cannot be opened at first. -/
example : Works goodOs ∧
    batches goodOs [] [[⟨[b! "a", b! "/dev/stdout", []], b! "x\n"⟩, ⟨[b! "a"], b! "y\n"⟩], [⟨[b! "a"], b! "z\n"⟩]] =
      [.open (b! "a") true, .write (b! "a") (b! "x\n") (b! "x\n"), .write (b! "/dev/stdout") (b! "x\n") (b! "x\n"), .write (b! "a") (b! "y\n") (b! "y\n"), .open (b! "a") true,
        .write (b! "a") (b! "z\n") (b! "z\n")] ∧
    batches ⟨fun t _ => t ≠ [], fun _ _ d => d.length⟩ [] [[⟨[b! "a"], b! "x\n"⟩, ⟨[b! "a"], b! "y\n"⟩], [⟨[b! "a"], b! "z\n"⟩]] =
      [.open (b! "a") false, .open (b! "a") true, .write (b! "a") (b! "z\n") (b! "z\n")] :=
  ⟨⟨fun _ _ => rfl, fun _ _ _ => Nat.le_refl _⟩, by decide +kernel, by decide +kernel⟩

/-- C125 is violated when the operating system accepts only a part of an entry, for example because a disk has become full: the rest is not written later, and the next entry follows on the same line. -/
theorem C125_torn : ∃ (os : Os) (bs : List (List LogFiles.Msg)), (∀ t f, os.opens t f = true) ∧ (∀ ms ∈ bs, ∀ m ∈ ms, ∃ body, m.text = body ++ [10] ∧ (10 : Byte) ∉ body) ∧
    content (b! "a") (batches os [] bs) = b! "firsecond\n" :=
  ⟨⟨fun _ _ => true, fun t _ d => if t.length = 1 then 3 else d.length⟩, [[⟨[b! "a"], b! "first\n"⟩], [⟨[b! "a"], b! "second\n"⟩]], fun _ _ => rfl,
    fun ms hms m hm => by
      simp only [List.mem_cons, List.not_mem_nil, or_false] at hms
      rcases hms with rfl | rfl
      · rw [List.mem_singleton] at hm; subst hm; exact ⟨b! "first", by decide, by decide⟩
      · rw [List.mem_singleton] at hm; subst hm; exact ⟨b! "second", by decide, by decide⟩,
    by decide +kernel⟩

end Verif.Props
