import Verif.Proofs.HttpRequest
/-! # Lemmas about request targets -/
namespace Verif.HttpRequest
open Verif.HttpLib Verif.Spec Verif.Uri

theorem name_eq_iff (a b : Bytes) : Http.name_eq a b = true ↔ SameButCase a b := by
  rw [Http.sameButCase_iff]; simp [Http.name_eq]

theorem sbc_length {a b : Bytes} (h : SameButCase a b) : a.length = b.length := by
  induction h with
  | nil => rfl
  | cons _ _ ih => simp [ih]

theorem prefix_iff (pre uri : Bytes) : hasPrefixCI pre uri = true ↔ ∃ s rest, uri = s ++ rest ∧ SameButCase s pre := by
  unfold hasPrefixCI
  rw [Bool.and_eq_true, decide_eq_true_eq, name_eq_iff]
  constructor
  · rintro ⟨_, h2⟩; exact ⟨_, _, (List.take_append_drop pre.length uri).symm, h2⟩
  · rintro ⟨s, rest, rfl, h⟩
    have := sbc_length h
    refine ⟨by simp; omega, ?_⟩
    rw [← this, List.take_left]; exact h

theorem contains_iff (pat s : Bytes) : contains pat s = true ↔ Occurs pat s := by
  induction s with
  | nil =>
    simp only [contains, Occurs, List.isEmpty_iff]
    constructor
    · rintro rfl; exact ⟨[], [], rfl⟩
    · rintro ⟨a, b, h⟩
      have := congrArg List.length h
      simp at this
      exact List.length_eq_zero_iff.mp (by omega)
  | cons c t ih =>
    simp only [contains, Bool.or_eq_true, ih, List.isPrefixOf_iff_prefix]
    constructor
    · rintro (⟨r, h⟩ | ⟨a, b, h⟩)
      · exact ⟨[], r, h.symm⟩
      · exact ⟨c :: a, b, by rw [h]; rfl⟩
    · rintro ⟨a, b, h⟩
      cases a with
      | nil => exact .inl ⟨b, h.symm⟩
      | cons x a =>
        simp only [List.cons_append, List.cons.injEq] at h
        exact .inr ⟨a, b, h.2⟩

theorem filter_one {α : Type} (p : α → Bool) (l : List α) (x : α) : l.filter p = [x] ↔ ∃ a b, l = a ++ x :: b ∧ p x = true ∧ ∀ y ∈ a ++ b, p y = false := by
  constructor
  · intro h
    induction l with
    | nil => simp at h
    | cons c t ih =>
      by_cases hc : p c = true
      · rw [List.filter_cons_of_pos hc, List.cons.injEq] at h
        obtain ⟨rfl, h⟩ := h
        refine ⟨[], t, rfl, hc, ?_⟩
        intro y hy
        have := List.filter_eq_nil_iff.mp h y hy
        simpa using this
      · rw [List.filter_cons_of_neg hc] at h
        obtain ⟨a, b, rfl, h1, h2⟩ := ih h
        refine ⟨c :: a, b, rfl, h1, ?_⟩
        intro y hy
        rcases List.mem_cons.mp hy with rfl | hy
        · simpa using hc
        · exact h2 y hy
  · rintro ⟨a, b, rfl, h1, h2⟩
    rw [List.filter_append, List.filter_cons_of_pos h1]
    have ha : a.filter p = [] := List.filter_eq_nil_iff.mpr (fun y hy => by simp [h2 y (by simp [hy])])
    have hb : b.filter p = [] := List.filter_eq_nil_iff.mpr (fun y hy => by simp [h2 y (by simp [hy])])
    rw [ha, hb]; rfl

theorem onlyHost_iff (hs : List (Bytes × Option Bytes)) (host : Bytes) : onlyHost hs = some host ↔ OneHost hs host := by
  unfold onlyHost OneHost
  constructor
  · intro h
    split at h
    · rename_i hr heq
      obtain ⟨a, b, h1, h2, h3⟩ := (filter_one _ _ _).mp heq
      refine ⟨a, b, hr.1, hr.2, h1, by simpa [as_string] using h, (name_eq_iff _ _).mp h2, ?_⟩
      intro x hx hs
      have := h3 x hx
      rw [(name_eq_iff _ _).mpr hs] at this
      exact Bool.noConfusion this
    · exact absurd h (by simp)
  · rintro ⟨a, b, n, v, h1, h2, h3, h4⟩
    have : hs.filter (fun hr => Http.name_eq hr.1 (b! "Host")) = [(n, v)] :=
      (filter_one _ _ _).mpr ⟨a, b, h1, (name_eq_iff _ _).mpr h3, fun y hy => by
        cases hh : Http.name_eq y.1 (b! "Host")
        · rfl
        · exact absurd ((name_eq_iff _ _).mp hh) (h4 y hy)⟩
    rw [this]
    simp [as_string, h2]

/-! ### Paths -/

/-- The reference that is parsed for a path. -/
def OriginForm.parts (o : OriginForm) : RefParts := ⟨false, b! "a", none, some o.path, o.query, o.fragment⟩

theorem origin_text (o : OriginForm) : (OriginForm.parts o).text = chr 'a' :: o.text := by
  simp [OriginForm.parts, RefParts.text, OriginForm.text, optText]; rfl

theorem origin_valid {o : OriginForm} (h : o.Valid) : (OriginForm.parts o).Valid where
  host_nonempty := by simp [OriginForm.parts]
  host_chars := by show ∀ c ∈ b! "a", c ∈ hostChars; decide
  port_num := by simp [OriginForm.parts]
  path_chars := by
    intro t ht
    simp only [OriginForm.parts, Option.some.injEq] at ht
    subst ht
    exact ⟨h.path_start, h.path_chars⟩
  query_chars := h.query_chars
  fragment_chars := h.fragment_chars

theorem no_scheme {pre : Bytes} {s : Bytes} (hp : pre = b! "http://" ∨ pre = b! "https://") (hs : s.head? = some (chr '/')) : hasPrefixCI pre s = false := by
  cases h : hasPrefixCI pre s with
  | false => rfl
  | true =>
    obtain ⟨a, r, rfl, h2⟩ := (prefix_iff _ _).mp h
    clear h
    rw [Http.sameButCase_iff] at h2
    have h := h2
    exfalso
    cases a with
    | nil => rcases hp with rfl | rfl <;> exact absurd h (by decide)
    | cons x a =>
      simp only [List.cons_append, List.head?_cons, Option.some.injEq] at hs
      subst hs
      rcases hp with rfl | rfl <;> simp only [List.map_cons, List.cons.injEq] at h <;> exact absurd h.1 (by decide)

theorem origin_head {o : OriginForm} (h : o.Valid) : o.text.head? = some (chr '/') := by
  obtain ⟨t, ht⟩ := h.path_start
  simp [OriginForm.text, ht]; rfl

theorem nil_terminated : Terminated [] := by intro c h; simp at h

theorem target_origin (m : Bytes) (hs : List (Bytes × Option Bytes)) (o : OriginForm) (hv : o.Valid) (host : Bytes) (hh : OneHost hs host) (hn : ¬ Occurs (b! "://") o.text) :
    parse_target { method := m, headers := hs } o.text
      = .ok { method := m, headers := hs, raw_host := host, raw_path := o.path, raw_query := o.query.getD [] } := by
  have hc : contains (b! "://") o.text = false := by
    cases h : contains (b! "://") o.text with
    | false => rfl
    | true => exact absurd ((contains_iff _ _).mp h) hn
  have hp := parse_complete {} (OriginForm.parts o) (origin_valid hv) [] nil_terminated
  rw [List.append_nil, origin_text] at hp
  unfold parse_target
  rw [no_scheme (.inl rfl) (origin_head hv), no_scheme (.inr rfl) (origin_head hv), hc]
  simp only [Bool.false_eq_true, if_false]
  unfold parse_origin
  simp only [origin_head hv, ne_eq, not_true_eq_false, if_false, hp, List.length_cons]
  rw [(onlyHost_iff _ _).mpr hh]
  obtain ⟨t, ht⟩ := hv.path_start
  have hne : o.path ≠ [] := by rw [ht]; simp
  simp only [fromRef, store, OriginForm.parts]
  congr 2
  · rw [ht]; rfl
  · rcases o.query with _ | _ | ⟨q, qs⟩ <;> rfl

/-! ### Absolute URIs -/

def stop (c : Byte) : Bool := c != chr '@' && c != chr '/'

theorem split_some (u r : Bytes) (hu : ∀ c ∈ u, c ≠ chr '@' ∧ c ≠ chr '/') : splitUserinfo (u ++ chr '@' :: r) = (u, r) := by
  have := scan (p := stop) (l := u) (rest := chr '@' :: r) (by intro c hc; simp [stop, hu c hc]) (by intro c hc; simp at hc; subst hc; decide)
  unfold splitUserinfo
  rw [show (fun c : Byte => c != chr '@' && c != chr '/') = stop from rfl, this.1, this.2]
  simp

theorem split_none (s : Bytes) (h : (s.dropWhile stop).head? ≠ some (chr '@')) : splitUserinfo s = ([], s) := by
  unfold splitUserinfo
  rw [show (fun c : Byte => c != chr '@' && c != chr '/') = stop from rfl]
  cases hd : s.dropWhile stop with
  | nil => rfl
  | cons c t =>
    rw [hd] at h
    simp only [List.head?_cons, ne_eq, Option.some.injEq] at h
    simp [h]

theorem split_sound (s : Bytes) : (splitUserinfo s = ([], s)) ∨ (∃ u r, s = u ++ chr '@' :: r ∧ (∀ c ∈ u, c ≠ chr '@' ∧ c ≠ chr '/') ∧ splitUserinfo s = (u, r)) := by
  by_cases h : (s.dropWhile stop).head? = some (chr '@')
  · right
    cases hd : s.dropWhile stop with
    | nil => rw [hd] at h; simp at h
    | cons c t =>
      rw [hd] at h
      simp only [List.head?_cons, Option.some.injEq] at h
      subst h
      have e : s = s.takeWhile stop ++ chr '@' :: t := by rw [← hd, List.takeWhile_append_dropWhile]
      have hu : ∀ c ∈ s.takeWhile stop, c ≠ chr '@' ∧ c ≠ chr '/' := by
        intro c hc
        have := takeWhile_all c hc
        simpa [stop] using this
      refine ⟨s.takeWhile stop, t, e, hu, ?_⟩
      have := split_some _ t hu
      rwa [← e] at this
  · exact .inl (split_none s h)

theorem host_stop (b : Bool) : ∀ c : Byte, c ∈ (if b then host6Chars else hostChars) → stop c = true := by
  cases b
  · exact forall_byte (by decide +kernel)
  · exact forall_byte (by decide +kernel)

theorem digit_stop : ∀ c : Byte, isDigit c = true → stop c = true := forall_byte (by decide +kernel)

theorem userinfo_char : ∀ c : Byte, c ∈ userinfoChars → c ≠ chr '@' ∧ c ≠ chr '/' := forall_byte (by decide +kernel)

theorem authority_stop (p : RefParts) (hv : p.Valid) : ∀ c ∈ (if p.bracketed then b! "[" ++ p.host ++ b! "]" else p.host) ++ optText (b! ":") (p.port.map Prod.fst), stop c = true := by
  intro c hc
  rcases List.mem_append.mp hc with h | h
  · have hh := hv.host_chars
    cases hb : p.bracketed with
    | false =>
      rw [hb] at h hh
      exact host_stop false c (hh c (by simpa using h))
    | true =>
      rw [hb] at h hh
      simp only [if_true, List.mem_append] at h
      rcases h with (h | h) | h
      · simp at h; subst h; decide
      · exact host_stop true c (hh c h)
      · simp at h; subst h; decide
  · cases hp : p.port with
    | none => rw [hp] at h; simp [optText] at h
    | some tn =>
      obtain ⟨t, n⟩ := tn
      rw [hp] at h
      simp only [Option.map_some, optText, List.mem_append] at h
      rcases h with h | h
      · simp at h; subst h; decide
      · exact digit_stop c (decNum_digits (hv.port_num t n hp).2.1 c h)

theorem split_ref (p : RefParts) (hv : p.Valid) (h : p.path ≠ none ∨ chr '@' ∉ p.text) : splitUserinfo p.text = ([], p.text) := by
  apply split_none
  rcases h with h | h
  · cases hp : p.path with
    | none => exact absurd hp h
    | some t =>
      obtain ⟨⟨t', rfl⟩, _⟩ := hv.path_chars t hp
      have e : p.text = ((if p.bracketed then b! "[" ++ p.host ++ b! "]" else p.host) ++ optText (b! ":") (p.port.map Prod.fst)) ++ (chr '/' :: (t' ++ optText (b! "?") p.query ++ optText (b! "#") p.fragment)) := by
        simp only [RefParts.text, hp, optText, List.append_assoc, List.nil_append]; rfl
      rw [e, (scan (authority_stop p hv) (by intro c hc; simp at hc; subst hc; decide)).2]
      simp only [List.head?_cons, ne_eq, Option.some.injEq]
      decide
  · intro he
    apply h
    have hm : chr '@' ∈ p.text.dropWhile stop := List.mem_of_mem_head? (by rw [he]; rfl)
    exact (List.dropWhile_suffix stop).subset hm

theorem scheme_https {s : Bytes} (h : SameButCase s (b! "https://")) (r : Bytes) : hasPrefixCI (b! "http://") (s ++ r) = false := by
  cases hp : hasPrefixCI (b! "http://") (s ++ r) with
  | false => rfl
  | true =>
    obtain ⟨a, t, e, h2⟩ := (prefix_iff _ _).mp hp
    exfalso
    have l1 := sbc_length h
    have l2 := sbc_length h2
    rw [Http.sameButCase_iff] at h h2
    have ea : a = s.take 7 := by
      have := congrArg (List.take 7) e
      rw [List.take_append_of_le_length (by simp at l1; omega), List.take_append_of_le_length (by simp at l2; omega)] at this
      rw [this, List.take_of_length_le (by simp at l2; omega)]
    rw [ea, List.map_take, h] at h2
    exact absurd h2 (by decide)

theorem target_scheme (m : Bytes) (hs : List (Bytes × Option Bytes)) (https : Bool) (s r : Bytes) (h : SameButCase s (if https then b! "https://" else b! "http://")) :
    parse_target { method := m, headers := hs } (s ++ r)
      = parse_absolute { method := m, headers := hs, port := if https then 443 else 80, is_proxy := true, is_ssl := https } r := by
  have l1 := sbc_length h
  unfold parse_target
  cases https with
  | false =>
    have h1 : hasPrefixCI (b! "http://") (s ++ r) = true := (prefix_iff _ _).mpr ⟨s, r, rfl, h⟩
    rw [h1, if_pos rfl, show (7 : Nat) = s.length by simpa using l1.symm, List.drop_left]
    rfl
  | true =>
    have h1 : hasPrefixCI (b! "https://") (s ++ r) = true := (prefix_iff _ _).mpr ⟨s, r, rfl, h⟩
    rw [scheme_https h, h1, if_neg (by simp), if_pos rfl, show (8 : Nat) = s.length by simpa using l1.symm, List.drop_left]
    rfl

/-- The headers for an absolute URI. -/
def absHeaders (m : Bytes) (hs : List (Bytes × Option Bytes)) (a : AbsoluteForm) : Headers :=
  { method := m, headers := hs, is_proxy := true, is_ssl := a.https
    port := (a.ref.port.map Prod.snd).getD (if a.https then 443 else 80)
    raw_host := a.ref.host
    raw_userinfo := a.userinfo.getD []
    raw_path := a.ref.path.getD (b! "/")
    raw_query := a.ref.query.getD [] }

theorem fromRef_abs (m : Bytes) (hs : List (Bytes × Option Bytes)) (a : AbsoluteForm) (hv : a.ref.Valid) :
    fromRef { method := m, headers := hs, port := if a.https then 443 else 80, is_proxy := true, is_ssl := a.https, raw_userinfo := a.userinfo.getD [], raw_host := a.ref.host } (store {} a.ref) = absHeaders m hs a := by
  simp only [fromRef, store, absHeaders, Headers.mk.injEq, true_and, and_true]
  refine ⟨?_, ?_, ?_⟩
  · rcases hp : a.ref.port with _ | ⟨t, n⟩
    · rfl
    · have := (hv.port_num t n hp).1
      cases t with
      | nil => exact absurd rfl this
      | cons => rfl
  · rcases hp : a.ref.path with _ | t
    · rfl
    · obtain ⟨⟨t', rfl⟩, _⟩ := hv.path_chars t hp
      rfl
  · rcases a.ref.query with _ | _ | ⟨q, qs⟩ <;> rfl

theorem target_absolute (m : Bytes) (hs : List (Bytes × Option Bytes)) (a : AbsoluteForm) (hv : a.Valid) (s : Bytes) (hs' : a.Text s)
    (hat : a.userinfo ≠ none ∨ a.ref.path ≠ none ∨ chr '@' ∉ a.ref.text) : parse_target { method := m, headers := hs } s = .ok (absHeaders m hs a) := by
  obtain ⟨scheme, h1, rfl⟩ := hs'
  rw [List.append_assoc, target_scheme m hs a.https scheme _ h1]
  have hsp : splitUserinfo (a.user ++ a.ref.text) = (a.userinfo.getD [], a.ref.text) := by
    cases hu : a.userinfo with
    | none =>
      simp only [AbsoluteForm.user, hu, List.nil_append, Option.getD_none]
      refine split_ref a.ref hv.ref_valid ?_
      rcases hat with h | h | h
      · exact absurd hu h
      · exact .inl h
      · exact .inr h
    | some u =>
      have := split_some u a.ref.text (fun c hc => userinfo_char c (hv.userinfo_chars u hu c hc))
      simp only [AbsoluteForm.user, hu, List.append_assoc]; exact this
  unfold parse_absolute
  simp only [hsp]
  have hp := parse_complete {} a.ref hv.ref_valid [] nil_terminated
  rw [List.append_nil] at hp
  simp only [hp, ne_eq, not_true_eq_false, if_false]
  rw [← fromRef_abs m hs a hv.ref_valid]
  simp [store]

/-! ### Everything that is accepted -/

theorem whole_ref {s : Bytes} (hs : s ≠ []) (h : (parse_network_reference {} s).2 = s.length) : ∃ p : RefParts, p.Valid ∧ p.text = s ∧ (parse_network_reference {} s).1 = store {} p := by
  have h0 : (parse_network_reference {} s).2 ≠ 0 := by
    rw [h]; intro h0; exact hs (List.length_eq_zero_iff.mp h0)
  obtain ⟨p, h1, h2, _, h4⟩ := parse_sound {} s h0
  rw [h, List.take_length] at h2
  exact ⟨p, h1, h2.symm, h4⟩

theorem absolute_sound (m : Bytes) (hs : List (Bytes × Option Bytes)) (https : Bool) (r : Bytes) (h : Headers)
    (hp : parse_absolute { method := m, headers := hs, port := if https then 443 else 80, is_proxy := true, is_ssl := https } r = .ok h) (hh : h.raw_host ≠ []) :
    ∃ a : AbsoluteForm, a.https = https ∧ a.ref.Valid ∧ (∀ u, a.userinfo = some u → ∀ c ∈ u, c ≠ chr '@' ∧ c ≠ chr '/') ∧
      r = a.user ++ a.ref.text ∧ h = absHeaders m hs a := by
  unfold parse_absolute at hp
  simp only at hp
  split at hp
  · simp at hp
  rename_i hlen
  simp only [ne_eq, Decidable.not_not] at hlen
  simp only [Except.ok.injEq] at hp
  subst hp
  have key : ∀ (ui : Option Bytes) (t : Bytes), splitUserinfo r = (ui.getD [], t) → (∀ u, ui = some u → ∀ c ∈ u, c ≠ chr '@' ∧ c ≠ chr '/') →
      (∀ a : AbsoluteForm, a.userinfo = ui → r = a.user ++ t) → ∃ a : AbsoluteForm, a.https = https ∧ a.ref.Valid ∧ (∀ u, a.userinfo = some u → ∀ c ∈ u, c ≠ chr '@' ∧ c ≠ chr '/') ∧
        r = a.user ++ a.ref.text ∧ fromRef { method := m, headers := hs, port := if https then 443 else 80, is_proxy := true, is_ssl := https, raw_userinfo := (splitUserinfo r).1, raw_host := (parse_network_reference {} (splitUserinfo r).2).1.host } (parse_network_reference {} (splitUserinfo r).2).1 = absHeaders m hs a := by
    intro ui t e1 e2 e3
    rw [e1] at hlen ⊢
    have hne : t ≠ [] := by
      intro h0
      rw [e1, h0] at hh
      exact hh rfl
    obtain ⟨p, h1, h2, h3⟩ := whole_ref hne hlen
    refine ⟨⟨https, ui, p⟩, rfl, h1, e2, ?_, ?_⟩
    · rw [h2]; exact e3 _ rfl
    · rw [← fromRef_abs m hs ⟨https, ui, p⟩ h1, h3]; rfl
  rcases split_sound r with h | ⟨u, t, h1, h2, h3⟩
  · exact key none r h (by simp) (by intro a ha; simp [AbsoluteForm.user, ha])
  · exact key (some u) t h3 (by intro u' hu'; cases hu'; exact h2) (by intro a ha; rw [h1]; simp only [AbsoluteForm.user, ha, List.append_assoc]; rfl)

theorem origin_ref (t : Bytes) : (parse_network_reference {} (chr 'a' :: chr '/' :: t)).1.host = b! "a" ∧ (parse_network_reference {} (chr 'a' :: chr '/' :: t)).1.is_ipv6 = false ∧
    (parse_network_reference {} (chr 'a' :: chr '/' :: t)).1.port = [] ∧ (parse_network_reference {} (chr 'a' :: chr '/' :: t)).1.path ≠ [] := by
  have h1 : parse_host {} (chr 'a' :: chr '/' :: t) = some ({ host := b! "a" }, chr '/' :: t) := by
    have e1 : (chr 'a' :: chr '/' :: t).takeWhile isHostChar = [chr 'a'] := by
      rw [List.takeWhile_cons, if_pos (by decide), List.takeWhile_cons, if_neg (by decide)]
    have e2 : (chr 'a' :: chr '/' :: t).dropWhile isHostChar = chr '/' :: t := by
      rw [List.dropWhile_cons, if_pos (by decide), List.dropWhile_cons, if_neg (by decide)]
    unfold parse_host
    simp only [e1, e2]
    rw [if_neg (by decide), if_neg (by simp)]
    rfl
  have h2 : parse_port { host := b! "a" } (chr '/' :: t) = some ({ host := b! "a" }, chr '/' :: t) := by
    have : chr '/' ≠ chr ':' := by decide
    simp [parse_port, this]
  have h3 : parse_path { host := b! "a" } (chr '/' :: t) = ({ host := b! "a", path := (chr '/' :: t).takeWhile isPathChar }, (chr '/' :: t).dropWhile isPathChar) := by
    simp [parse_path]
  unfold parse_network_reference
  simp only [h1, h2, h3]
  have hne : (chr '/' :: t).takeWhile isPathChar ≠ [] := by rw [List.takeWhile_cons, if_pos (by decide)]; simp
  have hq := parse_query_sound { host := b! "a", path := (chr '/' :: t).takeWhile isPathChar } ((chr '/' :: t).dropWhile isPathChar)
  obtain ⟨q, _, _, hq⟩ := hq
  obtain ⟨f, _, _, hf⟩ := parse_fragment_sound (parse_query { host := b! "a", path := (chr '/' :: t).takeWhile isPathChar } ((chr '/' :: t).dropWhile isPathChar)).1
    (parse_query { host := b! "a", path := (chr '/' :: t).takeWhile isPathChar } ((chr '/' :: t).dropWhile isPathChar)).2
  rw [hf, hq]
  exact ⟨rfl, rfl, rfl, hne⟩

theorem origin_sound (m : Bytes) (hs : List (Bytes × Option Bytes)) (uri : Bytes) (h : Headers) (hp : parse_origin { method := m, headers := hs } uri = .ok h) :
    ∃ o : OriginForm, o.Valid ∧ uri = o.text ∧ OneHost hs h.raw_host ∧
      h = { method := m, headers := hs, raw_host := h.raw_host, raw_path := o.path, raw_query := o.query.getD [] } := by
  unfold parse_origin at hp
  split at hp
  · simp at hp
  rename_i hd
  simp only [ne_eq, Decidable.not_not] at hd
  cases uri with
  | nil => simp at hd
  | cons c t =>
    simp only [List.head?_cons, Option.some.injEq] at hd
    subst hd
    simp only at hp
    split at hp
    · simp at hp
    rename_i hlen
    simp only [ne_eq, Decidable.not_not] at hlen
    cases ho : onlyHost hs with
    | none => simp [ho] at hp
    | some host =>
      simp only [ho, Except.ok.injEq] at hp
      obtain ⟨p, h1, h2, h3⟩ := whole_ref (s := chr 'a' :: chr '/' :: t) (by simp) (by rw [hlen]; simp)
      obtain ⟨r1, r2, r3, r4⟩ := origin_ref t
      rw [h3] at r1 r2 r3 r4 hp
      simp only [store, Bool.or_false] at r1 r2 r3 r4
      have hport : p.port = none := by
        cases hpo : p.port with
        | none => rfl
        | some tn =>
          rw [hpo] at r3
          exact absurd r3 (h1.port_num tn.1 tn.2 (by rw [hpo])).1
      obtain ⟨path, hpath⟩ : ∃ path, p.path = some path := by
        cases hpa : p.path with
        | none => rw [hpa] at r4; exact absurd rfl r4
        | some x => exact ⟨x, rfl⟩
      obtain ⟨hps, hpc⟩ := h1.path_chars path hpath
      refine ⟨⟨path, p.query, p.fragment⟩, ⟨hps, hpc, h1.query_chars, h1.fragment_chars⟩, ?_, ?_, ?_⟩
      · have : p.text = chr 'a' :: (OriginForm.mk path p.query p.fragment).text := by
          rw [← origin_text]
          simp only [RefParts.text, r1, r2, hport, hpath, OriginForm.parts]
          rfl
        rw [h2] at this
        exact (List.cons.injEq _ _ _ _ ▸ this).2
      · rw [← hp]
        exact (onlyHost_iff _ _).mp ho
      · rw [← hp]
        simp only [fromRef, store, hport, hpath]
        congr 1
        · obtain ⟨x, rfl⟩ := hps; rfl
        · rcases p.query with _ | _ | ⟨q, qs⟩ <;> rfl

theorem target_sound (m : Bytes) (hs : List (Bytes × Option Bytes)) (uri : Bytes) (h : Headers) (hp : parse_target { method := m, headers := hs } uri = .ok h) (hh : h.raw_host ≠ []) :
    (∃ o : OriginForm, o.Valid ∧ uri = o.text ∧ OneHost hs h.raw_host ∧ h = { method := m, headers := hs, raw_host := h.raw_host, raw_path := o.path, raw_query := o.query.getD [] }) ∨
    (∃ a : AbsoluteForm, a.ref.Valid ∧ (∀ u, a.userinfo = some u → ∀ c ∈ u, c ≠ chr '@' ∧ c ≠ chr '/') ∧ a.Text uri ∧ h = absHeaders m hs a) := by
  by_cases h1 : hasPrefixCI (b! "http://") uri = true
  · obtain ⟨s, r, rfl, hsb⟩ := (prefix_iff _ _).mp h1
    rw [target_scheme m hs false s r hsb] at hp
    obtain ⟨a, e1, e2, e3, e4, e5⟩ := absolute_sound m hs false r h hp hh
    exact .inr ⟨a, e2, e3, ⟨s, by rw [e1]; exact hsb, by rw [e4]; simp⟩, e5⟩
  · by_cases h2 : hasPrefixCI (b! "https://") uri = true
    · obtain ⟨s, r, rfl, hsb⟩ := (prefix_iff _ _).mp h2
      rw [target_scheme m hs true s r hsb] at hp
      obtain ⟨a, e1, e2, e3, e4, e5⟩ := absolute_sound m hs true r h hp hh
      exact .inr ⟨a, e2, e3, ⟨s, by rw [e1]; exact hsb, by rw [e4]; simp⟩, e5⟩
    · unfold parse_target at hp
      rw [if_neg h1, if_neg h2] at hp
      split at hp
      · simp at hp
      · simp only [Bool.false_eq_true, if_false] at hp
        exact .inl (origin_sound m hs uri h hp)

/-! ### Sending -/

def strs (hs : List (Bytes × Option Bytes)) : List (Bytes × Bytes) := hs.map (fun hr => (hr.1, as_string hr.2))

def methodText (h : Headers) : Bytes := if h.method = [] then b! "GET" else h.method

def requestLine (h : Headers) : Bytes := methodText h ++ b! " " ++ encode_target h ++ b! " HTTP/1.1"

theorem encode_request_lines (h : Headers) (body : Bytes) :
    encode h ++ body = (requestLine h :: Http.header_lines (strs h.headers)).flatMap (fun l => l ++ Http.crlf) ++ (Http.crlf ++ body) := by
  rw [← Http.shift_crlf, ← Http.header_flat]
  have e : h.headers.flatMap (fun hr => if hr.1 ≠ [] then b! "\r\n" ++ hr.1 ++ b! ": " ++ as_string hr.2 else []) = (strs h.headers).flatMap Http.header_line := by
    rw [strs, List.flatMap_map]
    rfl
  unfold encode
  rw [e]
  simp only [requestLine, methodText, List.append_assoc]
  rfl

theorem request_read (h : Headers) (body : Bytes) (h1 : OneLine (methodText h)) (h2 : OneLine (encode_target h)) (h3 : ∀ hr ∈ h.headers, OneLine hr.1 ∧ OneLine (as_string hr.2)) :
    readHead (encode h ++ body) [] = some (requestLine h :: Http.header_lines (strs h.headers), body) := by
  rw [encode_request_lines]
  apply Http.readHead_lines
  intro l hl
  have lit : OneLine (b! " HTTP/1.1") ∧ OneLine (b! " ") ∧ OneLine (b! ": ") := by unfold OneLine; decide
  rcases List.mem_cons.mp hl with rfl | hl
  · refine ⟨?_, by simp [requestLine]⟩
    exact Http.oneLine_append (Http.oneLine_append (Http.oneLine_append h1 lit.2.1) h2) lit.1
  · simp only [Http.header_lines, List.mem_map, List.mem_filter, strs] at hl
    obtain ⟨x, ⟨⟨hr, hm, rfl⟩, _⟩, rfl⟩ := hl
    exact ⟨Http.oneLine_append (Http.oneLine_append (h3 hr hm).1 lit.2.2) (h3 hr hm).2, by simp⟩

/-- The path with a leading slash. -/
def slashed (p : Bytes) : Bytes := if p.head? ≠ some (chr '/') then b! "/" ++ p else p

theorem slashed_start (p : Bytes) : ∃ t, slashed p = b! "/" ++ t := by
  unfold slashed
  split
  · exact ⟨p, rfl⟩
  · rename_i h
    simp only [ne_eq, Decidable.not_not] at h
    cases p with
    | nil => simp at h
    | cons c t => simp only [List.head?_cons, Option.some.injEq] at h; subst h; exact ⟨t, rfl⟩

theorem slashed_chars (p : Bytes) (h : ∀ c ∈ p, c ∈ pathChars) : ∀ c ∈ slashed p, c ∈ pathChars := by
  unfold slashed
  split
  · intro c hc
    rcases List.mem_append.mp hc with hc | hc
    · simp only [List.mem_singleton] at hc; subst hc; decide
    · exact h c hc
  · exact h

/-- An optional part that is absent if it is empty. -/
def nonEmpty (s : Bytes) : Option Bytes := match s with | [] => none | _ :: _ => some s

theorem nonEmpty_getD (s : Bytes) : (nonEmpty s).getD [] = s := by cases s <;> rfl

theorem target_eq (h : Headers) (hp : h.is_proxy = false) : encode_target h = (OriginForm.mk (slashed h.raw_path) (nonEmpty h.raw_query) none).text := by
  unfold encode_target OriginForm.text slashed
  rw [hp]
  cases h.raw_query with
  | nil => simp [nonEmpty, optText]
  | cons c t => simp [nonEmpty, optText]

theorem frag_oneLine : ∀ c : Byte, c ∈ fragmentChars → c ≠ 13 ∧ c ≠ 10 := forall_byte (by decide +kernel)

theorem chars_oneLine {s : Bytes} (h : ∀ c ∈ s, c ∈ fragmentChars) : OneLine s :=
  ⟨fun hm => (frag_oneLine 13 (h 13 hm)).1 rfl, fun hm => (frag_oneLine 10 (h 10 hm)).2 rfl⟩

theorem origin_oneLine {o : OriginForm} (hv : o.Valid) (hf : o.fragment = none) : OneLine o.text := by
  apply chars_oneLine
  intro c hc
  simp only [OriginForm.text, hf, optText, List.append_nil] at hc
  rcases List.mem_append.mp hc with hc | hc
  · exact (chars_sub c).2.2.1 (hv.path_chars c hc)
  · cases hq : o.query with
    | none => rw [hq] at hc; simp [optText] at hc
    | some q =>
      rw [hq] at hc
      simp only [optText, List.mem_append] at hc
      rcases hc with hc | hc
      · simp only [List.mem_singleton] at hc; subst hc; decide
      · exact (chars_sub c).2.2.2 (hv.query_chars q hq c hc)

theorem setHost_none (host : Bytes) (hs : List (Bytes × Option Bytes)) (h : ∀ hr ∈ hs, ¬ SameButCase hr.1 (b! "Host")) : setHost host hs = hs ++ [(b! "Host", some host)] := by
  induction hs with
  | nil => rfl
  | cons x t ih =>
    have hx : Http.name_eq x.1 (b! "Host") = false := by
      cases hh : Http.name_eq x.1 (b! "Host")
      · rfl
      · exact absurd ((name_eq_iff _ _).mp hh) (h x (by simp))
    simp only [setHost, hx, Bool.false_eq_true, if_false]
    rw [ih (fun y hy => h y (by simp [hy]))]
    rfl

theorem setHost_one (host : Bytes) (a b : List (Bytes × Option Bytes)) (n : Bytes) (v : Option Bytes) (ha : ∀ hr ∈ a, ¬ SameButCase hr.1 (b! "Host")) (hn : SameButCase n (b! "Host")) :
    setHost host (a ++ (n, v) :: b) = a ++ (n, some host) :: b := by
  induction a with
  | nil => simp [setHost, (name_eq_iff _ _).mpr hn]
  | cons x t ih =>
    have hx : Http.name_eq x.1 (b! "Host") = false := by
      cases hh : Http.name_eq x.1 (b! "Host")
      · rfl
      · exact absurd ((name_eq_iff _ _).mp hh) (ha x (by simp))
    simp only [List.cons_append, setHost, hx, Bool.false_eq_true, if_false]
    rw [ih (fun y hy => ha y (by simp [hy]))]

/-- Headers other than `Host`. -/
def others (hs : List (Bytes × Option Bytes)) : List (Bytes × Option Bytes) := hs.filter (fun hr => !Http.name_eq hr.1 (b! "Host"))

theorem others_none {hs : List (Bytes × Option Bytes)} (h : ∀ hr ∈ hs, ¬ SameButCase hr.1 (b! "Host")) : others hs = hs := by
  apply List.filter_eq_self.mpr
  intro x hx
  cases hh : Http.name_eq x.1 (b! "Host")
  · rfl
  · exact absurd ((name_eq_iff _ _).mp hh) (h x hx)

/-- There is at most one `Host` header. -/
def AtMostOneHost (hs : List (Bytes × Option Bytes)) : Prop := (∀ hr ∈ hs, ¬ SameButCase hr.1 (b! "Host")) ∨ ∃ v, OneHost hs v

theorem sbc_host : SameButCase (b! "Host") (b! "Host") := by rw [Http.sameButCase_iff]

theorem setHost_spec (host : Bytes) (hs : List (Bytes × Option Bytes)) (h : AtMostOneHost hs) : OneHost (setHost host hs) host ∧ others (setHost host hs) = others hs ∧
    ∀ hr ∈ setHost host hs, hr ∈ hs ∨ (∃ v, (hr.1, v) ∈ hs ∧ hr.2 = some host) ∨ hr = (b! "Host", some host) := by
  rcases h with h | ⟨v, a, b, n, v', rfl, _, h3, h4⟩
  · rw [setHost_none host hs h]
    refine ⟨⟨hs, [], b! "Host", some host, rfl, rfl, sbc_host, by simpa using h⟩, ?_, ?_⟩
    · unfold others
      rw [List.filter_append]
      have : List.filter (fun hr : Bytes × Option Bytes => !Http.name_eq hr.1 (b! "Host")) [(b! "Host", some host)] = [] := by
        rw [List.filter_cons_of_neg (by simp [(name_eq_iff _ _).mpr sbc_host])]; rfl
      rw [this, List.append_nil]
    · intro hr hm
      rcases List.mem_append.mp hm with hm | hm
      · exact .inl hm
      · exact .inr (.inr (by simpa using hm))
  · rw [setHost_one host a b n v' (fun hr hm => h4 hr (by simp [hm])) h3]
    refine ⟨⟨a, b, n, some host, rfl, rfl, h3, h4⟩, ?_, ?_⟩
    · have hn : (!Http.name_eq n (b! "Host")) = false := by rw [(name_eq_iff _ _).mpr h3]; rfl
      unfold others
      rw [List.filter_append, List.filter_append, List.filter_cons_of_neg (by simp [hn]), List.filter_cons_of_neg (by simp [hn])]
    · intro hr hm
      rcases List.mem_append.mp hm with hm | hm
      · exact .inl (by simp [hm])
      · rcases List.mem_cons.mp hm with rfl | hm
        · exact .inr (.inl ⟨v', by simp, rfl⟩)
        · exact .inl (by simp [hm])

theorem oneHost_append {hs : List (Bytes × Option Bytes)} {v : Bytes} (h : OneHost hs v) (x : List (Bytes × Option Bytes)) (hx : ∀ hr ∈ x, ¬ SameButCase hr.1 (b! "Host")) : OneHost (hs ++ x) v := by
  obtain ⟨a, b, n, v', rfl, h2, h3, h4⟩ := h
  refine ⟨a, b ++ x, n, v', by simp, h2, h3, ?_⟩
  intro hr hm
  rw [← List.append_assoc] at hm
  rcases List.mem_append.mp hm with hm | hm
  · exact h4 hr hm
  · exact hx hr hm

theorem cl_not_host : ¬ SameButCase (b! "Content-Length") (b! "Host") := by rw [Http.sameButCase_iff]; decide

theorem header_lines_strs (hs : List (Bytes × Option Bytes)) (h : ∀ hr ∈ hs, hr.1 ≠ []) : Http.header_lines (strs hs) = hs.map (fun hr => hr.1 ++ b! ": " ++ as_string hr.2) := by
  unfold Http.header_lines strs
  rw [List.filter_eq_self.mpr]
  · simp
  · intro x hx
    obtain ⟨hr, hm, rfl⟩ := List.mem_map.mp hx
    simpa using h hr hm

/-! ### Absolute URIs -/

def absOf (h : Headers) : AbsoluteForm :=
  ⟨h.is_ssl, nonEmpty h.raw_userinfo, ⟨false, h.raw_host, if h.port = 0 then none else some (Http.decimal h.port, h.port), some (slashed h.raw_path), nonEmpty h.raw_query, none⟩⟩

theorem target_abs_eq (h : Headers) (hp : h.is_proxy = true) : (absOf h).Text (encode_target h) := by
  refine ⟨if h.is_ssl then b! "https://" else b! "http://", ?_, ?_⟩
  · rw [Http.sameButCase_iff]; rfl
  · unfold encode_target absOf
    rw [hp]
    simp only [if_true, AbsoluteForm.user, RefParts.text, slashed]
    cases h.raw_userinfo <;> by_cases hport : h.port = 0 <;> cases h.raw_query <;> simp [nonEmpty, optText, hport]

theorem nonEmpty_some {s t : Bytes} (h : nonEmpty s = some t) : t = s := by
  cases s with
  | nil => simp [nonEmpty] at h
  | cons => simpa [nonEmpty] using h.symm

theorem abs_valid (h : Headers) (hu : ∀ c ∈ h.raw_userinfo, c ∈ userinfoChars) (hh : h.raw_host ≠ []) (hh' : ∀ c ∈ h.raw_host, c ∈ hostChars) (hpt : h.port ≤ 65535)
    (hpa : ∀ c ∈ h.raw_path, c ∈ pathChars) (hq : ∀ c ∈ h.raw_query, c ∈ queryChars) : (absOf h).Valid where
  userinfo_chars := by intro u hu' c hc; rw [nonEmpty_some hu'] at hc; exact hu c hc
  ref_valid :=
    { host_nonempty := hh
      host_chars := hh'
      port_num := by
        intro t n ht
        simp only [absOf] at ht
        split at ht
        · exact absurd ht (by simp)
        · simp only [Option.some.injEq, Prod.mk.injEq] at ht
          obtain ⟨rfl, rfl⟩ := ht
          exact ⟨Http.digits_ne _ _ _ _, Http.decimal_decNum _, hpt⟩
      path_chars := by
        intro t ht
        simp only [absOf, Option.some.injEq] at ht
        subst ht
        exact ⟨slashed_start _, slashed_chars _ hpa⟩
      query_chars := by intro t ht c hc; rw [nonEmpty_some ht] at hc; exact hq c hc
      fragment_chars := by intro t ht; simp [absOf] at ht }

end Verif.HttpRequest
