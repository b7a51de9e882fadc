import Verif.Spec.Mysql
import Verif.Proofs.DateTimeText
namespace Verif.Mysql

/-- Each special character gets a backslash. -/
def escape (str : Bytes) : Bytes := str.flatMap fun c => if special c then [chr '\\', c] else [c]

theorem escape_plain : ∀ {s : Bytes}, (∀ c ∈ s, special c = false) → escape s = s
  | [], _ => rfl
  | c :: s, h => by
    have ih := escape_plain (s := s) fun x hx => h x (List.mem_cons_of_mem _ hx)
    unfold escape at ih ⊢
    rw [List.flatMap_cons, ih, h c (List.mem_cons_self ..)]
    rfl

theorem escape_append (a b : Bytes) : escape (a ++ b) = escape a ++ escape b := List.flatMap_append

theorem findOf_none {str : Bytes} {pos : Nat} (h : findOf str pos = none) : ∀ c ∈ str.drop pos, special c = false := by
  unfold findOf at h
  rw [Option.map_eq_none_iff, List.findIdx?_eq_none_iff] at h
  exact h

theorem findOf_some {str : Bytes} {pos next : Nat} (h : findOf str pos = some next) :
    pos ≤ next ∧ ∃ c, special c = true ∧ str.drop next = c :: str.drop (next + 1) ∧ (∀ x ∈ (str.drop pos).take (next - pos), special x = false) := by
  unfold findOf at h
  rw [Option.map_eq_some_iff] at h
  obtain ⟨i, hi, rfl⟩ := h
  rw [List.findIdx?_eq_some_iff_getElem] at hi
  obtain ⟨hl, hs, hb⟩ := hi
  refine ⟨by omega, (str.drop pos)[i], hs, ?_, ?_⟩
  · rw [List.length_drop] at hl
    rw [List.getElem_drop, List.drop_eq_getElem_cons (by omega)]
  · intro x hx
    rw [show pos + i - pos = i by omega, List.mem_take_iff_getElem] at hx
    obtain ⟨j, hj, rfl⟩ := hx
    have hj' : j < i := by omega
    have := hb j hj'
    simpa using this

/-- `start` is the position after an escaped character at `base`, or both are zero. -/
theorem blobLoop_spec (str : Bytes) : ∀ (fuel base start : Nat) (fmt : Bytes), str.length < fuel + start + 1 → start ≤ str.length + 1 → base ≤ start →
    blobLoop str fuel base start fmt = fmt ++ (str.drop base).take (start - base) ++ escape (str.drop start)
  | 0, base, start, fmt, hf, hs, hb => by
    have : start = str.length + 1 ∨ start = str.length := by omega
    rw [blobLoop, List.drop_eq_nil_of_le (as := str) (i := start) (by omega), List.append_assoc]
    rw [List.take_of_length_le (by rw [List.length_drop]; omega)]
    simp [escape]
  | k + 1, base, start, fmt, hf, hs, hb => by
    rw [blobLoop]
    have split : ∀ n, start ≤ n → (str.drop base).take (n - base) = (str.drop base).take (start - base) ++ (str.drop start).take (n - start) := by
      intro n hn
      have e : n - base = (start - base) + (n - start) := by omega
      rw [e, List.take_add, List.drop_drop, show base + (start - base) = start by omega]
    cases hf' : findOf str start with
    | none =>
      have := escape_plain (findOf_none hf')
      simp only
      rw [this, List.append_assoc]
      congr 1
      have : str.drop start = (str.drop base).drop (start - base) := by rw [List.drop_drop]; congr 1; omega
      rw [this, List.take_append_drop]
    | some next =>
      obtain ⟨hle, c, hc, hd, hp⟩ := findOf_some hf'
      have hlen : next < str.length := by
        rcases Nat.lt_or_ge next str.length with h | h
        · exact h
        · rw [List.drop_eq_nil_of_le h] at hd; exact nomatch hd
      simp only
      rw [blobLoop_spec str k next (next + 1) _ (by omega) (by omega) (by omega), split next hle]
      have e1 : str.drop start = (str.drop start).take (next - start) ++ str.drop next := by
        have : str.drop next = (str.drop start).drop (next - start) := by rw [List.drop_drop]; congr 1; omega
        rw [this, List.take_append_drop]
      have e2 : escape (str.drop next) = [chr '\\', c] ++ escape (str.drop (next + 1)) := by
        rw [hd]; unfold escape; rw [List.flatMap_cons, if_pos hc]
      conv => rhs; rw [e1, escape_append, escape_plain hp, e2]
      rw [hd, show next + 1 - next = 1 by omega]
      simp

theorem printBlob_eq (str fmt : Bytes) : printBlob str fmt = fmt ++ chr '\'' :: (escape str ++ [chr '\'']) := by
  unfold printBlob
  rw [blobLoop_spec str _ 0 0 _ (by omega) (by omega) (by omega)]
  simp

theorem unescape_special {c : Byte} (h : special c = true) : unescape c = [c] := by
  unfold special at h
  simp only [Bool.or_eq_true, decide_eq_true_eq] at h
  rcases h with (rfl | rfl) | rfl <;> rfl

theorem read_escape (rest : Bytes) (hr : rest.head? ≠ some (chr '\'')) : ∀ s : Bytes, readString (escape s ++ chr '\'' :: rest) = some (s, rest)
  | [] => by
    have e1 : ¬chr '\'' = chr '\\' := by decide
    cases rest with
    | nil => rfl
    | cons d rest =>
      have : ¬d = chr '\'' := fun e => hr (by rw [e]; rfl)
      simp only [escape, List.flatMap_nil, List.nil_append]
      rw [readString.eq_def]
      simp only [if_neg e1, if_true, if_neg this]
  | c :: s => by
    have ih := read_escape rest hr s
    cases hc : special c with
    | true =>
      have : escape (c :: s) = chr '\\' :: c :: escape s := by unfold escape; rw [List.flatMap_cons, if_pos hc]; rfl
      rw [this, List.cons_append, List.cons_append, readString.eq_def]
      simp only [if_true]
      rw [ih, unescape_special hc]
      rfl
    | false =>
      have : escape (c :: s) = c :: escape s := by unfold escape; rw [List.flatMap_cons, hc]; rfl
      have h1 : ¬c = chr '\\' := by intro e; rw [e] at hc; exact absurd hc (by decide)
      have h2 : ¬c = chr '\'' := by intro e; rw [e] at hc; exact absurd hc (by decide)
      rw [this, List.cons_append, readString.eq_def]
      simp only [if_neg h1, if_neg h2]
      rw [ih]
      rfl

/-! ## Date-times -/

theorem nanos_eq {ns : Int} (h1 : -9223372036000000000 ≤ ns) (h2 : ns ≤ 9223372036854775807) : (nanos ns : Int) = ns % 1000000000 ∧ DateTime.seconds ns = ns / 1000000000 := by
  unfold nanos DateTime.seconds
  rw [Int.emod_eq_of_lt (a := ns + 9223372036000000000) (by omega) (by omega)]
  omega

/-- What is bound and then decoded, for any offset that can be encoded. -/
theorem fetch_bind (timelocal : DateTime.Tm → Int → Int) (isdst : Int) (zone : Int → Int) {ns : Int} (h1 : -9223372036000000000 ≤ ns) (h2 : ns ≤ 9223372036854775807)
    (h3 : -52200 ≤ zone (ns / 1000000000)) (h4 : zone (ns / 1000000000) < 126000) :
    fetchTime timelocal isdst (bindTime zone ns) =
      (let x := ns / 1000000 * 1000000 + zone (ns / 1000000000) % 1800 * 1000000000
       if x ≤ 9223372036854775807 then .ok x 0 else .overflow) := by
  obtain ⟨e1, e2⟩ := nanos_eq h1 h2
  generalize ho : zone (ns / 1000000000) = off at h3 h4
  have hb : bindTime zone ns = { year := (DateTime.breakDown (ns / 1000000000) off).year, month := (DateTime.breakDown (ns / 1000000000) off).mon + 1, day := (DateTime.breakDown (ns / 1000000000) off).mday, hour := (DateTime.breakDown (ns / 1000000000) off).hour, minute := (DateTime.breakDown (ns / 1000000000) off).min, second := (DateTime.breakDown (ns / 1000000000) off).sec, secondPart := nanos ns / 1000000 * 1000 + ((54000 + off) % 4294967296).toNat / 1800 } := by
    unfold bindTime
    simp only [e2, ho]
    rfl
  have ht : ∀ o, DateTime.timegm { year := (DateTime.breakDown (ns / 1000000000) off).year, mon := (DateTime.breakDown (ns / 1000000000) off).mon, mday := (DateTime.breakDown (ns / 1000000000) off).mday, hour := (DateTime.breakDown (ns / 1000000000) off).hour, min := (DateTime.breakDown (ns / 1000000000) off).min, sec := (DateTime.breakDown (ns / 1000000000) off).sec, wday := 0, off := o } = ns / 1000000000 + off := by
    intro o
    have := DateTime.timegm_breakDown (ns / 1000000000) off (by unfold DateTime.epoch; omega)
    exact this
  rw [hb]
  unfold fetchTime
  simp only [Nat.add_sub_cancel, ht]
  generalize hk : ((54000 + off) % 4294967296).toNat / 1800 = k
  have hk' : (k : Int) = (54000 + off) / 1800 := by omega
  have hk1 : 1 ≤ k ∧ k < 100 := by omega
  generalize hm : nanos ns / 1000000 = m
  have hm' : (m : Int) = ns % 1000000000 / 1000000 := by omega
  have hq : (m * 1000 + k) % 100 = k := by omega
  have hd : (m * 1000 + k) / 1000 = m := by omega
  rw [hq, hd, if_neg (show ¬k = 0 by omega)]
  have hs : ns / 1000000000 + off - ((k * 1800 : Nat) - 54000) = ns / 1000000000 + off % 1800 := by omega
  rw [hs]
  have hx : (ns / 1000000000 + off % 1800) * 1000000000 + ((m * 1000000 : Nat) : Int) = ns / 1000000 * 1000000 + off % 1800 * 1000000000 := by omega
  rw [hx]
  split <;> split <;> first | rfl | omega

end Verif.Mysql
