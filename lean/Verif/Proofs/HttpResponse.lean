import Verif.Proofs.HttpRequest
import Verif.Spec.HttpClient
/-! # Lemmas about response parsing -/
namespace Verif.HttpResponse
open Verif.HttpLib Verif.Spec
open Verif.HttpRequest (as_string onLast startsNew Cfg Fail onLast_append startsNew_append split_last)

theorem onDatas_append (c : Cfg) (p : Parser) (a b : List Data) :
    onDatas c p (a ++ b) = match onDatas c p a with | .error e => .error e | .ok p' => onDatas c p' b := by
  induction a generalizing p with
  | nil => rfl
  | cons d t ih =>
    cases h : onData c p d with
    | error e => simp only [List.cons_append, onDatas, h]
    | ok p' => simp only [List.cons_append, onDatas, h]; exact ih p'

/-- Whether two results agree up to the kind of failure. -/
def Agree (a b : Except Fail Parser) : Prop := a.toOption = b.toOption

theorem size_snoc (h : Headers) (l : List (Bytes × Option Bytes)) (x : Bytes × Option Bytes) :
    estimate_size { h with headers := l ++ [x] } = estimate_size { h with headers := l } + (4 + x.1.length + (as_string x.2).length) := by
  simp [estimate_size]; omega

theorem status_status (c : Cfg) (p : Parser) (n : Nat) (s t : Bytes) : Agree (onDatas c p [.status n s, .status n t]) (onDatas c p [.status n (s ++ t)]) := by
  simp [Agree, onDatas, onData, on_status]

theorem value_value (c : Cfg) (p : Parser) (s t : Bytes) : Agree (onDatas c p [.value s, .value t]) (onDatas c p [.value (s ++ t)]) := by
  simp only [Agree, onDatas, onData, on_header_value]
  by_cases hn : p.headers.headers = []
  · simp only [hn, if_true]
    by_cases h : estimate_size p.headers + s.length > c.max_header_length
    · by_cases h2 : estimate_size p.headers + (s ++ t).length > c.max_header_length
      · rw [if_pos h, if_pos h2]
      · rw [if_pos h, if_neg h2]; rfl
    · by_cases h2 : estimate_size p.headers + (s ++ t).length > c.max_header_length
      · rw [if_neg h, if_pos h2]; rfl
      · rw [if_neg h, if_neg h2]
  · obtain ⟨l, x, hl⟩ := split_last _ hn
    simp only [hl, onLast_append, List.append_eq_nil_iff, List.cons_ne_self, and_false, if_false, reduceCtorEq]
    have hsz : estimate_size p.headers = estimate_size { p.headers with headers := l } + (4 + x.1.length + (as_string x.2).length) := by
      rw [← size_snoc]; simp [← hl]
    have hlen : estimate_size p.headers + (s ++ t).length = estimate_size p.headers + s.length + t.length := by simp; omega
    rw [hlen]
    by_cases h : estimate_size p.headers + s.length > c.max_header_length
    · have h2 : estimate_size p.headers + s.length + t.length > c.max_header_length := by omega
      rw [if_pos h, if_pos h2]
    · rw [if_neg h]
      simp only [onLast_append]
      have e2 : estimate_size { p.headers with headers := l ++ [(x.1, some (as_string x.2 ++ s))] } = estimate_size p.headers + s.length := by
        rw [size_snoc, hsz]; simp [as_string]; omega
      rw [e2]
      by_cases h2 : estimate_size p.headers + s.length + t.length > c.max_header_length
      · simp only [if_pos h2]
      · simp only [if_neg h2]
        simp [as_string]

theorem field_field (c : Cfg) (p : Parser) (s t : Bytes) : Agree (onDatas c p [.field s, .field t]) (onDatas c p [.field (s ++ t)]) := by
  simp only [Agree, onDatas, onData, on_header_field]
  -- the headers after the first step always end with a header without a value
  obtain ⟨h, l, n, hh, heq⟩ : ∃ (h : Headers) (l : List (Bytes × Option Bytes)) (n : Bytes), (if startsNew p.headers.headers = true then { p.headers with headers := p.headers.headers ++ [([], none)] } else p.headers) = h ∧ h.headers = l ++ [(n, none)] := by
    by_cases hs : startsNew p.headers.headers = true
    · exact ⟨_, p.headers.headers, [], by rw [if_pos hs], rfl⟩
    · by_cases hn : p.headers.headers = []
      · rw [hn] at hs; exact absurd rfl hs
      · obtain ⟨l, x, hl⟩ := split_last _ hn
        rw [hl, startsNew_append] at hs
        obtain ⟨n, v⟩ := x
        cases v with
        | some v => exact absurd rfl hs
        | none => exact ⟨p.headers, l, n, by rw [hl, startsNew_append]; rfl, hl⟩
  simp only [hh]
  have hsz : estimate_size h = estimate_size { h with headers := l } + (4 + n.length) := by
    have := size_snoc h l (n, none)
    rw [← heq] at this
    simpa [as_string] using this
  have hlen : estimate_size h + (s ++ t).length = estimate_size h + s.length + t.length := by simp; omega
  rw [hlen]
  by_cases h1 : estimate_size h + s.length > c.max_header_length
  · have h2 : estimate_size h + s.length + t.length > c.max_header_length := by omega
    rw [if_pos h1, if_pos h2]
  · rw [if_neg h1]
    simp only [heq, onLast_append, startsNew_append, Option.isSome_none, Bool.false_eq_true, if_false]
    have e2 : estimate_size { h with headers := l ++ [(n ++ s, none)] } = estimate_size h + s.length := by
      rw [size_snoc, hsz]; simp [as_string]; omega
    rw [e2]
    by_cases h2 : estimate_size h + s.length + t.length > c.max_header_length
    · simp only [if_pos h2]
    · simp only [if_neg h2]
      simp

theorem body_body (c : Cfg) (p : Parser) (s t : Bytes) : Agree (onDatas c p [.body s, .body t]) (onDatas c p [.body (s ++ t)]) := by
  simp only [Agree, onDatas, onData, on_body]
  have hlen : p.payload.length + (s ++ t).length = p.payload.length + s.length + t.length := by simp; omega
  rw [hlen]
  by_cases h : p.payload.length + s.length > c.max_content_length
  · have h2 : p.payload.length + s.length + t.length > c.max_content_length := by omega
    rw [if_pos h, if_pos h2]
  · rw [if_neg h]
    simp only [List.length_append]
    by_cases h2 : p.payload.length + s.length + t.length > c.max_content_length
    · simp only [if_pos h2]
    · simp only [if_neg h2]
      simp

theorem agree_context (c : Cfg) (p : Parser) (pre a b post : List Data) (h : ∀ q, Agree (onDatas c q a) (onDatas c q b)) :
    Agree (onDatas c p (pre ++ a ++ post)) (onDatas c p (pre ++ b ++ post)) := by
  simp only [List.append_assoc, onDatas_append c p pre]
  cases onDatas c p pre with
  | error e => rfl
  | ok q =>
    simp only [onDatas_append c q]
    have := h q
    unfold Agree at *
    cases ha : onDatas c q a <;> cases hb : onDatas c q b <;> rw [ha, hb] at this
    · rfl
    · simp [Except.toOption] at this
    · simp [Except.toOption] at this
    · simp only [Except.toOption, Option.some.injEq] at this
      rw [this]

theorem regroup (c : Cfg) (p : Parser) {a b : List Data} (h : Regroup a b) : Agree (onDatas c p a) (onDatas c p b) := by
  induction h with
  | refl => rfl
  | symm _ ih => exact ih.symm
  | trans _ _ ih1 ih2 => exact ih1.trans ih2
  | url pre s t post => exact agree_context c p pre _ _ post (fun q => rfl)
  | status pre n s t post => exact agree_context c p pre _ _ post (fun q => status_status c q n s t)
  | field pre s t post => exact agree_context c p pre _ _ post (fun q => field_field c q s t)
  | value pre s t post => exact agree_context c p pre _ _ post (fun q => value_value c q s t)
  | body pre s t post => exact agree_context c p pre _ _ post (fun q => body_body c q s t)
/-! ### Assembling a head -/

/-- A parser that has seen a status code, a reason and some headers. -/
def mk (host : Nat × Bytes) (hs : List (Bytes × Option Bytes)) : Parser := { headers := { status := host.1, reason := host.2, headers := hs } }

def hsize (hs : List (Bytes × Option Bytes)) : Nat := (hs.map (fun hr => 4 + hr.1.length + (as_string hr.2).length)).sum

theorem mk_size (host : Nat × Bytes) (hs : List (Bytes × Option Bytes)) : estimate_size (mk host hs).headers = (12 + host.2.length) + hsize hs := by
  simp [mk, estimate_size, hsize]

theorem hsize_snoc (l : List (Bytes × Option Bytes)) (n : Bytes) (v : Option Bytes) : hsize (l ++ [(n, v)]) = hsize l + (4 + n.length + (as_string v).length) := by
  simp [hsize]

theorem fields (c : Cfg) (host : Nat × Bytes) (l : List (Bytes × Option Bytes)) : ∀ (ns : List Bytes) (n : Bytes), (12 + host.2.length) + hsize (l ++ [(n, none)]) ≤ c.max_header_length →
    onDatas c (mk host (l ++ [(n, none)])) (ns.map .field)
      = if (12 + host.2.length) + hsize (l ++ [(n, none)]) + ns.flatten.length > c.max_header_length then .error .exception else .ok (mk host (l ++ [(n ++ ns.flatten, none)]))
  | [], n, h => by
    have : ¬ ((12 + host.2.length) + hsize (l ++ [(n, none)]) + ([] : List Bytes).flatten.length > c.max_header_length) := by simpa using h
    rw [if_neg this]; simp [onDatas]
  | u :: us, n, h => by
    have hst : startsNew (mk host (l ++ [(n, none)])).headers.headers = false := startsNew_append l (n, none)
    simp only [List.map_cons, onDatas, onData, on_header_field, hst, Bool.false_eq_true, if_false, mk_size]
    by_cases h1 : (12 + host.2.length) + hsize (l ++ [(n, none)]) + u.length > c.max_header_length
    · have h2 : (12 + host.2.length) + hsize (l ++ [(n, none)]) + (u :: us).flatten.length > c.max_header_length := by simp; omega
      rw [if_pos h1, if_pos h2]
    · rw [if_neg h1]
      have e0 : onLast (fun hr : Bytes × Option Bytes => (hr.1 ++ u, hr.2)) (l ++ [(n, none)]) = l ++ [(n ++ u, none)] := onLast_append _ _ _
      show onDatas c { (mk host []) with headers := { (mk host []).headers with headers := onLast (fun hr : Bytes × Option Bytes => (hr.1 ++ u, hr.2)) (l ++ [(n, none)]) } } _ = _
      rw [e0]
      show onDatas c (mk host (l ++ [(n ++ u, none)])) _ = _
      have e1 : hsize (l ++ [(n ++ u, none)]) = hsize (l ++ [(n, none)]) + u.length := by simp [hsize_snoc]; omega
      rw [fields c host l us (n ++ u) (by omega), e1]
      have e2 : (12 + host.2.length) + (hsize (l ++ [(n, none)]) + u.length) + us.flatten.length = (12 + host.2.length) + hsize (l ++ [(n, none)]) + (u :: us).flatten.length := by simp; omega
      rw [e2]; simp

theorem values (c : Cfg) (host : Nat × Bytes) (l : List (Bytes × Option Bytes)) (n : Bytes) : ∀ (vs : List Bytes) (v : Option Bytes), (12 + host.2.length) + hsize (l ++ [(n, v)]) ≤ c.max_header_length → vs ≠ [] →
    onDatas c (mk host (l ++ [(n, v)])) (vs.map .value)
      = if (12 + host.2.length) + hsize (l ++ [(n, v)]) + vs.flatten.length > c.max_header_length then .error .exception else .ok (mk host (l ++ [(n, some (as_string v ++ vs.flatten))]))
  | [], _, _, h => absurd rfl h
  | u :: us, v, h, _ => by
    have hne : ¬ (mk host (l ++ [(n, v)])).headers.headers = [] := by simp [mk]
    simp only [List.map_cons, onDatas, onData, on_header_value, if_neg hne, mk_size]
    by_cases h1 : (12 + host.2.length) + hsize (l ++ [(n, v)]) + u.length > c.max_header_length
    · have h2 : (12 + host.2.length) + hsize (l ++ [(n, v)]) + (u :: us).flatten.length > c.max_header_length := by simp; omega
      rw [if_pos h1, if_pos h2]
    · rw [if_neg h1]
      have e0 : onLast (fun hr : Bytes × Option Bytes => (hr.1, some (as_string hr.2 ++ u))) (l ++ [(n, v)]) = l ++ [(n, some (as_string v ++ u))] := onLast_append _ _ _
      show onDatas c { (mk host []) with headers := { (mk host []).headers with headers := onLast (fun hr : Bytes × Option Bytes => (hr.1, some (as_string hr.2 ++ u))) (l ++ [(n, v)]) } } _ = _
      rw [e0]
      show onDatas c (mk host (l ++ [(n, some (as_string v ++ u))])) _ = _
      have e1 : hsize (l ++ [(n, some (as_string v ++ u))]) = hsize (l ++ [(n, v)]) + u.length := by simp [hsize_snoc, as_string]; omega
      by_cases hus : us = []
      · subst hus
        have h2 : ¬ ((12 + host.2.length) + hsize (l ++ [(n, v)]) + ([u] : List Bytes).flatten.length > c.max_header_length) := by simp; omega
        rw [if_neg h2]
        simp [onDatas]
      · rw [values c host l n us _ (by omega) hus, e1]
        have e2 : (12 + host.2.length) + (hsize (l ++ [(n, v)]) + u.length) + us.flatten.length = (12 + host.2.length) + hsize (l ++ [(n, v)]) + (u :: us).flatten.length := by simp; omega
        rw [e2]; simp [as_string]

/-- All headers so far have values. -/
def Valued (l : List (Bytes × Option Bytes)) : Prop := ∀ hr ∈ l, hr.2.isSome = true

theorem valued_new {l : List (Bytes × Option Bytes)} (h : Valued l) : startsNew l = true := by
  by_cases hl : l = []
  · subst hl; rfl
  · obtain ⟨i, x, rfl⟩ := split_last l hl
    rw [startsNew_append]
    exact h x (by simp)

theorem header (c : Cfg) (host : Nat × Bytes) (l : List (Bytes × Option Bytes)) (hv : Valued l) (ns vs : List Bytes) (hn : ns ≠ []) (hvs : vs ≠ []) (hl : (12 + host.2.length) + hsize l ≤ c.max_header_length) :
    onDatas c (mk host l) (ns.map .field ++ vs.map .value)
      = if (12 + host.2.length) + hsize l + (4 + ns.flatten.length + vs.flatten.length) > c.max_header_length then .error .exception else .ok (mk host (l ++ [(ns.flatten, some vs.flatten)])) := by
  obtain ⟨u, us, rfl⟩ := List.exists_cons_of_ne_nil hn
  rw [onDatas_append]
  have hst : startsNew (mk host l).headers.headers = true := valued_new hv
  have e0 : onDatas c (mk host l) ((u :: us).map .field) = if (12 + host.2.length) + hsize l + (4 + (u :: us).flatten.length) > c.max_header_length then .error .exception else .ok (mk host (l ++ [((u :: us).flatten, none)])) := by
    have ez : estimate_size { (mk host l).headers with headers := (mk host l).headers.headers ++ [([], none)] } = (12 + host.2.length) + hsize (l ++ [([], none)]) := mk_size host (l ++ [([], none)])
    simp only [List.map_cons, onDatas, onData, on_header_field, hst, if_true, ez]
    have e4 : hsize (l ++ [([], none)]) = hsize l + 4 := by simp [hsize_snoc, as_string]
    by_cases h1 : (12 + host.2.length) + hsize (l ++ [([], none)]) + u.length > c.max_header_length
    · have h2 : (12 + host.2.length) + hsize l + (4 + (u :: us).flatten.length) > c.max_header_length := by simp; omega
      rw [if_pos h1, if_pos h2]
    · rw [if_neg h1]
      have e0 : onLast (fun hr : Bytes × Option Bytes => (hr.1 ++ u, hr.2)) (l ++ [([], none)]) = l ++ [(u, none)] := onLast_append _ _ _
      show onDatas c { (mk host []) with headers := { (mk host []).headers with headers := onLast (fun hr : Bytes × Option Bytes => (hr.1 ++ u, hr.2)) (l ++ [([], none)]) } } _ = _
      rw [e0]
      show onDatas c (mk host (l ++ [(u, none)])) _ = _
      have e1 : hsize (l ++ [(u, none)]) = hsize l + 4 + u.length := by simp [hsize_snoc, as_string]; omega
      rw [fields c host l us u (by omega), e1]
      have e2 : (12 + host.2.length) + (hsize l + 4 + u.length) + us.flatten.length = (12 + host.2.length) + hsize l + (4 + (u :: us).flatten.length) := by simp; omega
      rw [e2]; simp
  rw [e0]
  by_cases h1 : (12 + host.2.length) + hsize l + (4 + (u :: us).flatten.length) > c.max_header_length
  · have h2 : (12 + host.2.length) + hsize l + (4 + (u :: us).flatten.length + vs.flatten.length) > c.max_header_length := by omega
    rw [if_pos h1, if_pos h2]
  · rw [if_neg h1]
    have e1 : hsize (l ++ [((u :: us).flatten, none)]) = hsize l + (4 + (u :: us).flatten.length) := by simp [hsize_snoc, as_string]
    show onDatas c (mk host (l ++ [((u :: us).flatten, none)])) _ = _
    rw [values c host l _ vs none (by omega) hvs, e1]
    have e2 : (12 + host.2.length) + (hsize l + (4 + (u :: us).flatten.length)) + vs.flatten.length = (12 + host.2.length) + hsize l + (4 + (u :: us).flatten.length + vs.flatten.length) := by omega
    rw [e2]; rfl

theorem headers_all (c : Cfg) (host : Nat × Bytes) : ∀ (hs : List (List Bytes × List Bytes)) (l : List (Bytes × Option Bytes)), Valued l → (12 + host.2.length) + hsize l ≤ c.max_header_length →
    (∀ h ∈ hs, h.1 ≠ [] ∧ h.2 ≠ []) →
    onDatas c (mk host l) (hs.flatMap (fun h => h.1.map .field ++ h.2.map .value))
      = if (12 + host.2.length) + hsize l + (hs.map (fun h => 4 + h.1.flatten.length + h.2.flatten.length)).sum > c.max_header_length then .error .exception
        else .ok (mk host (l ++ hs.map (fun h => (h.1.flatten, some h.2.flatten))))
  | [], l, _, hl, _ => by
    have : ¬ ((12 + host.2.length) + hsize l + (([] : List (List Bytes × List Bytes)).map (fun h => 4 + h.1.flatten.length + h.2.flatten.length)).sum > c.max_header_length) := by simpa using hl
    rw [if_neg this]; simp [onDatas]
  | h :: hs, l, hv, hl, hh => by
    rw [List.flatMap_cons, onDatas_append, header c host l hv h.1 h.2 (hh h (by simp)).1 (hh h (by simp)).2 hl]
    by_cases h1 : (12 + host.2.length) + hsize l + (4 + h.1.flatten.length + h.2.flatten.length) > c.max_header_length
    · have h2 : (12 + host.2.length) + hsize l + ((h :: hs).map (fun h => 4 + h.1.flatten.length + h.2.flatten.length)).sum > c.max_header_length := by
        rw [List.map_cons, List.sum_cons]; omega
      rw [if_pos h1, if_pos h2]
    · rw [if_neg h1]
      have e1 : hsize (l ++ [(h.1.flatten, some h.2.flatten)]) = hsize l + (4 + h.1.flatten.length + h.2.flatten.length) := by simp [hsize_snoc, as_string]
      show onDatas c (mk host (l ++ [(h.1.flatten, some h.2.flatten)])) _ = _
      rw [headers_all c host hs _ (by
        intro hr hm
        rcases List.mem_append.1 hm with hm | hm
        · exact hv hr hm
        · simp at hm; subst hm; rfl) (by omega) (fun x hx => hh x (by simp [hx])), e1]
      have e2 : (12 + host.2.length) + (hsize l + (4 + h.1.flatten.length + h.2.flatten.length)) + (hs.map (fun h => 4 + h.1.flatten.length + h.2.flatten.length)).sum
          = (12 + host.2.length) + hsize l + ((h :: hs).map (fun h => 4 + h.1.flatten.length + h.2.flatten.length)).sum := by
        rw [List.map_cons, List.sum_cons]; omega
      rw [e2]; simp
theorem statuses (c : Cfg) (n : Nat) : ∀ (us : List Bytes) (k : Nat) (r : Bytes), us ≠ [] → onDatas c (mk (k, r) []) (us.map (.status n)) = .ok (mk (n, r ++ us.flatten) [])
  | [], _, _, h => absurd rfl h
  | [u], k, r, _ => by simp [onDatas, onData, on_status, mk]
  | u :: v :: us, k, r, _ => by
    have := statuses c n (v :: us) n (r ++ u) (by simp)
    rw [List.map_cons, onDatas]
    simp only [onData]
    show onDatas c (mk (n, r ++ u) []) _ = _
    rw [this]
    simp

theorem head_all (c : Cfg) (n : Nat) (us : List Bytes) (hs : List (List Bytes × List Bytes)) (hu : us ≠ []) (hh : ∀ h ∈ hs, h.1 ≠ [] ∧ h.2 ≠ []) :
    onDatas c {} (replyCalls n us hs) = if hs ≠ [] ∧ replySize us hs > c.max_header_length then .error .exception
      else .ok { headers := { status := n, reason := us.flatten, headers := hs.map (fun h => (h.1.flatten, some h.2.flatten)) } } := by
  unfold replyCalls replySize
  rw [onDatas_append, show onDatas c {} (us.map (.status n)) = _ from statuses c n us 0 [] hu]
  simp only [List.nil_append]
  by_cases he : hs = []
  · subst he; rfl
  · by_cases h1 : 12 + us.flatten.length ≤ c.max_header_length
    · have := headers_all c (n, us.flatten) hs [] (by intro _ h; cases h) (by simpa [hsize] using h1) hh
      rw [this]
      simp [he, hsize, mk]
    · rw [if_pos ⟨he, by omega⟩]
      obtain ⟨x, xs, rfl⟩ := List.exists_cons_of_ne_nil he
      obtain ⟨y, ys, hy⟩ := List.exists_cons_of_ne_nil (hh x (by simp)).1
      simp only [List.flatMap_cons, hy, List.map_cons, List.cons_append, onDatas, onData, on_header_field]
      rw [if_pos]
      show 12 + _ + _ + y.length > _
      simp only [List.length_flatten] at h1
      split <;> simp [mk] <;> omega

theorem payload_all (c : Cfg) (p : Parser) (pieces : List Bytes) (hp : p.payload.length ≤ c.max_content_length) :
    onDatas c p (pieces.map .body) = if p.payload.length + pieces.flatten.length > c.max_content_length then .error .exception
      else .ok { p with payload := p.payload ++ pieces.flatten } := by
  induction pieces generalizing p with
  | nil =>
    have : ¬ (p.payload.length + ([] : List Bytes).flatten.length > c.max_content_length) := by simpa using hp
    simp only [List.map_nil, onDatas, if_neg this]
    simp
  | cons s t ih =>
    simp only [List.map_cons, onDatas, onData, on_body]
    by_cases h1 : p.payload.length + s.length > c.max_content_length
    · have h2 : p.payload.length + (s :: t).flatten.length > c.max_content_length := by simp; omega
      rw [if_pos h1, if_pos h2]
    · rw [if_neg h1]
      simp only
      rw [ih { p with payload := p.payload ++ s } (by simp; omega)]
      have e : (p.payload ++ s).length + t.flatten.length = p.payload.length + (s :: t).flatten.length := by simp; omega
      simp only [e]
      simp

end Verif.HttpResponse
