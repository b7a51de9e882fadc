import Verif.Proofs.DateTime
/-!
# `strptime_l()` reads what `strftime_l()` writes
-/
namespace Verif.DateTime

theorem dig_facts : ∀ n : Fin 10, isDigit (dig n) = true ∧ isSpace (dig n) = false ∧ dig n ≠ 32 ∧ (dig n).toNat - 48 = n ∧ dig n ≠ chr ':' := by decide +kernel

theorem dig_digit {n : Nat} (h : n < 10) : isDigit (dig n) = true := (dig_facts ⟨n, h⟩).1
theorem dig_space {n : Nat} (h : n < 10) : isSpace (dig n) = false := (dig_facts ⟨n, h⟩).2.1
theorem dig_blank {n : Nat} (h : n < 10) : (dig n == 32) = false := beq_false_of_ne (dig_facts ⟨n, h⟩).2.2.1
theorem dig_val {n : Nat} (h : n < 10) : (dig n).toNat - 48 = n := (dig_facts ⟨n, h⟩).2.2.2.1
theorem dig_colon {n : Nat} (h : n < 10) : dig n ≠ chr ':' := (dig_facts ⟨n, h⟩).2.2.2.2

theorem mod10 (n : Nat) : n % 10 < 10 := Nat.mod_lt _ (by decide)

theorem getNumber_pad2 {lo hi v : Nat} (h1 : lo ≤ v) (h2 : v ≤ hi) (h3 : hi ≤ 99) (r : Bytes) : getNumber lo hi 1 (pad2 v ++ r) = some (v, r) := by
  have e : v / 10 % 10 = v / 10 := by omega
  simp only [getNumber, pad2, List.cons_append, List.nil_append, List.dropWhile_cons, dig_blank (mod10 _), dig_digit (mod10 _), dig_val (mod10 _), moreDigits, if_true, and_true,
    Bool.false_eq_true, ↓reduceIte]
  have h4 : v / 10 % 10 * 10 ≤ hi := by omega
  simp only [h4, if_true]
  have h5 : v / 10 % 10 * 10 + v % 10 = v := by omega
  rw [h5, if_pos ⟨h1, h2⟩]

theorem getNumber_dig {lo hi v : Nat} (h1 : lo ≤ v) (h2 : v ≤ hi) (h3 : v < 10) (r : Bytes) : getNumber lo hi 1 (dig v :: 32 :: r) = some (v, 32 :: r) := by
  have h4 : isDigit 32 = false := by decide
  simp only [getNumber, List.dropWhile_cons, dig_blank h3, dig_digit h3, dig_val h3, moreDigits, if_true, h4, and_false, Bool.false_eq_true, ↓reduceIte]
  rw [if_pos ⟨h1, h2⟩]

theorem getNumber_pad4 {v : Nat} (h : v ≤ 9999) (r : Bytes) : getNumber 0 9999 3 (pad4 v ++ r) = some (v, r) := by
  simp only [getNumber, pad4, List.cons_append, List.nil_append, List.dropWhile_cons, dig_blank (mod10 _), dig_digit (mod10 _), dig_val (mod10 _), moreDigits, if_true, and_true,
    Bool.false_eq_true, ↓reduceIte]
  have h1 : v / 1000 % 10 * 10 ≤ 9999 := by omega
  have h2 : (v / 1000 % 10 * 10 + v / 100 % 10) * 10 ≤ 9999 := by omega
  have h3 : ((v / 1000 % 10 * 10 + v / 100 % 10) * 10 + v / 10 % 10) * 10 ≤ 9999 := by omega
  simp only [h1, h2, h3, if_true]
  have h5 : ((v / 1000 % 10 * 10 + v / 100 % 10) * 10 + v / 10 % 10) * 10 + v % 10 = v := by omega
  rw [h5, if_pos ⟨Nat.zero_le _, h⟩]

theorem strptime_cons {f : Dir} {fs : List Dir} {s s' : Bytes} {tm tm' : Tm} (h : parse1 tm s f = some (tm', s')) : strptime (f :: fs) s tm = strptime fs s' tm' := by
  rw [strptime, h]

theorem st_lit (c : Byte) (fs : List Dir) (s : Bytes) (tm : Tm) : strptime (.lit c :: fs) (c :: s) tm = strptime fs s tm := strptime_cons (by simp [parse1])

theorem st_space {c : Byte} (hc : isSpace c = false) (fs : List Dir) (s : Bytes) (tm : Tm) : strptime (.space :: fs) (32 :: c :: s) tm = strptime fs (c :: s) tm :=
  strptime_cons (by
    have h : isSpace 32 = true := by decide
    simp [parse1, List.dropWhile_cons, h, hc])

theorem st_d {v : Nat} (h1 : 1 ≤ v) (h2 : v ≤ 31) (fs : List Dir) (s : Bytes) (tm : Tm) : strptime (.d :: fs) (pad2 v ++ s) tm = strptime fs s { tm with mday := v } :=
  strptime_cons (by simp [parse1, getNumber_pad2 h1 h2 (by decide)])

theorem st_m {v : Nat} (h2 : v ≤ 11) (fs : List Dir) (s : Bytes) (tm : Tm) : strptime (.m :: fs) (pad2 (v + 1) ++ s) tm = strptime fs s { tm with mon := v } :=
  strptime_cons (by simp [parse1, getNumber_pad2 (show 1 ≤ v + 1 by omega) (show v + 1 ≤ 12 by omega) (by decide)])

theorem st_Y {v : Nat} (h : v ≤ 9999) (fs : List Dir) (s : Bytes) (tm : Tm) : strptime (.Y :: fs) (pad4 v ++ s) tm = strptime fs s { tm with year := v } :=
  strptime_cons (by simp [parse1, getNumber_pad4 h])

theorem st_y {v : Nat} (h : v ≤ 99) (fs : List Dir) (s : Bytes) (tm : Tm) :
    strptime (.y :: fs) (pad2 v ++ s) tm = strptime fs s { tm with year := if v ≥ 69 then v + 1900 else v + 2000 } :=
  strptime_cons (by simp [parse1, getNumber_pad2 (Nat.zero_le v) h (by decide)])

theorem st_hms {h m s : Nat} (h1 : h ≤ 23) (h2 : m ≤ 59) (h3 : s ≤ 59) (fs : List Dir) (r : Bytes) (tm : Tm) :
    strptime (hms ++ fs) (pad2 h ++ chr ':' :: (pad2 m ++ chr ':' :: (pad2 s ++ r))) tm = strptime fs r { tm with hour := h, min := m, sec := s } := by
  unfold hms
  simp only [List.cons_append, List.nil_append]
  rw [strptime_cons (f := .H) (tm' := { tm with hour := h }) (s' := chr ':' :: (pad2 m ++ chr ':' :: (pad2 s ++ r)))
      (by simp [parse1, getNumber_pad2 (Nat.zero_le h) h1 (by decide)]), st_lit,
    strptime_cons (f := .M) (tm' := { tm with hour := h, min := m }) (s' := chr ':' :: (pad2 s ++ r)) (by simp [parse1, getNumber_pad2 (Nat.zero_le m) h2 (by decide)]), st_lit,
    strptime_cons (f := .S) (tm' := { tm with hour := h, min := m, sec := s }) (s' := r) (by simp [parse1, getNumber_pad2 (Nat.zero_le s) (show s ≤ 61 by omega) (by decide)])]

/-- A character that ends a name. -/
def isEnd (c : Byte) : Bool := c == 44 || c == 32 || c == 45

theorem day_cases {w : Nat} (h : w ≤ 6) : w = 0 ∨ w = 1 ∨ w = 2 ∨ w = 3 ∨ w = 4 ∨ w = 5 ∨ w = 6 := by omega
theorem mon_cases {m : Nat} (h : m ≤ 11) : m = 0 ∨ m = 1 ∨ m = 2 ∨ m = 3 ∨ m = 4 ∨ m = 5 ∨ m = 6 ∨ m = 7 ∨ m = 8 ∨ m = 9 ∨ m = 10 ∨ m = 11 := by omega

theorem isEnd_cases {c : Byte} (h : isEnd c = true) : c = 44 ∨ c = 32 ∨ c = 45 := by
  simp only [isEnd, Bool.or_eq_true, beq_iff_eq] at h
  rcases h with (h | h) | h
  · exact .inl h
  · exact .inr (.inl h)
  · exact .inr (.inr h)

theorem st_ab {w : Nat} (h : w ≤ 6) {c : Byte} (hc : isEnd c = true) (fs : List Dir) (s : Bytes) (tm : Tm) :
    strptime (.ab :: fs) ((dayNames[w]?.getD []).take 3 ++ c :: s) tm = strptime fs (c :: s) { tm with wday := w } := by
  refine strptime_cons ?_
  rcases isEnd_cases hc with rfl | rfl | rfl <;> rcases day_cases h with rfl | rfl | rfl | rfl | rfl | rfl | rfl <;> rfl

theorem st_wd {w : Nat} (h : w ≤ 6) {c : Byte} (hc : isEnd c = true) (fs : List Dir) (s : Bytes) (tm : Tm) :
    strptime (.wd :: fs) (dayNames[w]?.getD [] ++ c :: s) tm = strptime fs (c :: s) { tm with wday := w } := by
  refine strptime_cons ?_
  rcases isEnd_cases hc with rfl | rfl | rfl <;> rcases day_cases h with rfl | rfl | rfl | rfl | rfl | rfl | rfl <;> rfl

theorem st_b {m : Nat} (h : m ≤ 11) {c : Byte} (hc : isEnd c = true) (fs : List Dir) (s : Bytes) (tm : Tm) :
    strptime (.b :: fs) ((monthNames[m]?.getD []).take 3 ++ c :: s) tm = strptime fs (c :: s) { tm with mon := m } := by
  refine strptime_cons ?_
  rcases isEnd_cases hc with rfl | rfl | rfl <;> rcases mon_cases h with rfl | rfl | rfl | rfl | rfl | rfl | rfl | rfl | rfl | rfl | rfl | rfl <;> rfl

theorem st_sp_pad2 (v : Nat) (fs : List Dir) (s : Bytes) (tm : Tm) : strptime (.space :: fs) (chr ' ' :: (pad2 v ++ s)) tm = strptime fs (pad2 v ++ s) tm :=
  st_space (dig_space (mod10 _)) fs _ tm

theorem st_sp_pad4 (v : Nat) (fs : List Dir) (s : Bytes) (tm : Tm) : strptime (.space :: fs) (chr ' ' :: (pad4 v ++ s)) tm = strptime fs (pad4 v ++ s) tm :=
  st_space (dig_space (mod10 _)) fs _ tm

theorem st_sp_mon {m : Nat} (h : m ≤ 11) (fs : List Dir) (s : Bytes) (tm : Tm) :
    strptime (.space :: fs) (chr ' ' :: ((monthNames[m]?.getD []).take 3 ++ s)) tm = strptime fs ((monthNames[m]?.getD []).take 3 ++ s) tm := by
  rcases mon_cases h with rfl | rfl | rfl | rfl | rfl | rfl | rfl | rfl | rfl | rfl | rfl | rfl <;> exact st_space (by decide) fs _ tm

theorem st_gmt (tm : Tm) : strptime gmt (chr ' ' :: b! "GMT") tm = some (tm, []) := by
  unfold gmt
  rw [show (b! "GMT") = [chr 'G', chr 'M', chr 'T'] from rfl, show (chr ' ' : Byte) = 32 from rfl, st_space (by decide), st_lit, st_lit, st_lit]
  rfl

/-- The day of the month in `asctime` -/
theorem st_sp_e {v : Nat} (h1 : 1 ≤ v) (h2 : v ≤ 31) (fs : List Dir) (s : Bytes) (tm : Tm) :
    strptime (.space :: .e :: fs) (chr ' ' :: (spad2 v ++ chr ' ' :: s)) tm = strptime fs (chr ' ' :: s) { tm with mday := v } := by
  unfold spad2
  split
  · rename_i h
    rw [strptime_cons (f := .space) (tm' := tm) (s' := dig v :: chr ' ' :: s)
      (by
        have h32 : isSpace 32 = true := by decide
        simp [parse1, List.dropWhile_cons, show chr ' ' = 32 from rfl, h32, dig_space h])]
    exact strptime_cons (by simp [parse1, show chr ' ' = 32 from rfl, getNumber_dig h1 h2 h])
  · rw [st_sp_pad2]
    exact strptime_cons (by simp [parse1, getNumber_pad2 h1 h2 (by decide)])

theorem read_rfc1123 {tm : Tm} (h : Valid tm) (hy : tm.year ≤ 9999) : strptime rfc1123 (strftime rfc1123 tm) {} = some ({ tm with off := 0 }, []) := by
  have e : strftime rfc1123 tm = (dayNames[tm.wday]?.getD []).take 3 ++ chr ',' :: chr ' ' :: (pad2 tm.mday ++ chr ' ' :: ((monthNames[tm.mon]?.getD []).take 3 ++ chr ' ' :: (pad4 tm.year ++
      chr ' ' :: (pad2 tm.hour ++ chr ':' :: (pad2 tm.min ++ chr ':' :: (pad2 tm.sec ++ chr ' ' :: b! "GMT")))))) := rfl
  rw [e, show rfc1123 = .ab :: .lit (chr ',') :: .space :: .d :: .space :: .b :: .space :: .Y :: .space :: (hms ++ gmt) from rfl,
    st_ab h.wday (by decide), st_lit, st_sp_pad2, st_d h.pos h.mday, st_sp_mon h.mon, st_b h.mon (by decide), st_sp_pad4, st_Y hy, st_sp_pad2, st_hms h.hour h.min h.sec, st_gmt]

theorem read_cookie {tm : Tm} (h : Valid tm) (hy : tm.year ≤ 9999) : strptime cookie (strftime cookie tm) {} = some ({ tm with off := 0 }, []) := by
  have e : strftime cookie tm = (dayNames[tm.wday]?.getD []).take 3 ++ chr ',' :: chr ' ' :: (pad2 tm.mday ++ chr '-' :: ((monthNames[tm.mon]?.getD []).take 3 ++ chr '-' :: (pad4 tm.year ++
      chr ' ' :: (pad2 tm.hour ++ chr ':' :: (pad2 tm.min ++ chr ':' :: (pad2 tm.sec ++ chr ' ' :: b! "GMT")))))) := rfl
  rw [e, show cookie = .ab :: .lit (chr ',') :: .space :: .d :: .lit (chr '-') :: .b :: .lit (chr '-') :: .Y :: .space :: (hms ++ gmt) from rfl,
    st_ab h.wday (by decide), st_lit, st_sp_pad2, st_d h.pos h.mday, st_lit, st_b h.mon (by decide), st_lit, st_Y hy, st_sp_pad2, st_hms h.hour h.min h.sec, st_gmt]

theorem read_rfc850 {tm : Tm} (h : Valid tm) :
    strptime rfc850 (strftime rfc850 tm) {} = some ({ tm with off := 0, year := if tm.year % 100 ≥ 69 then tm.year % 100 + 1900 else tm.year % 100 + 2000 }, []) := by
  have e : strftime rfc850 tm = dayNames[tm.wday]?.getD [] ++ chr ',' :: chr ' ' :: (pad2 tm.mday ++ chr '-' :: ((monthNames[tm.mon]?.getD []).take 3 ++ chr '-' :: (pad2 (tm.year % 100) ++
      chr ' ' :: (pad2 tm.hour ++ chr ':' :: (pad2 tm.min ++ chr ':' :: (pad2 tm.sec ++ chr ' ' :: b! "GMT")))))) := rfl
  rw [e, show rfc850 = .wd :: .lit (chr ',') :: .space :: .d :: .lit (chr '-') :: .b :: .lit (chr '-') :: .y :: .space :: (hms ++ gmt) from rfl,
    st_wd h.wday (by decide), st_lit, st_sp_pad2, st_d h.pos h.mday, st_lit, st_b h.mon (by decide), st_lit, st_y (by omega), st_sp_pad2, st_hms h.hour h.min h.sec, st_gmt]

theorem read_asctime {tm : Tm} (h : Valid tm) (hy : tm.year ≤ 9999) : strptime asctime (strftime asctime tm) {} = some ({ tm with off := 0 }, []) := by
  have e : strftime asctime tm = (dayNames[tm.wday]?.getD []).take 3 ++ chr ' ' :: ((monthNames[tm.mon]?.getD []).take 3 ++ chr ' ' :: (spad2 tm.mday ++ chr ' ' ::
      (pad2 tm.hour ++ chr ':' :: (pad2 tm.min ++ chr ':' :: (pad2 tm.sec ++ chr ' ' :: (pad4 tm.year ++ [])))))) := rfl
  rw [e, show asctime = .ab :: .space :: .b :: .space :: .e :: .space :: (hms ++ [.space, .Y]) from rfl,
    st_ab h.wday (by decide), st_sp_mon h.mon, st_b h.mon (by decide), st_sp_e h.pos h.mday, st_sp_pad2, st_hms h.hour h.min h.sec, st_sp_pad4, st_Y hy]
  rfl

theorem read_gitLocal {tm : Tm} (h : Valid tm) (hy : tm.year ≤ 9999) (r : Bytes) : strptime gitLocal (strftime gitLocal tm ++ r) {} = some ({ tm with off := 0, wday := 0 }, r) := by
  have e : strftime gitLocal tm ++ r = pad4 tm.year ++ chr '-' :: (pad2 (tm.mon + 1) ++ chr '-' :: (pad2 tm.mday ++ chr ' ' ::
      (pad2 tm.hour ++ chr ':' :: (pad2 tm.min ++ chr ':' :: (pad2 tm.sec ++ r))))) := rfl
  rw [e, show gitLocal = .Y :: .lit (chr '-') :: .m :: .lit (chr '-') :: .d :: .space :: (hms ++ []) from rfl,
    st_Y hy, st_lit, st_m h.mon, st_lit, st_d h.pos h.mday, st_sp_pad2, st_hms h.hour h.min h.sec]
  rfl

theorem zoneDigits_pad {a b : Nat} (ha : a ≤ 99) (hb : b ≤ 59) : zoneDigits 4 0 (pad2 a ++ pad2 b) = (4, a * 100 + b, []) := by
  simp only [pad2, List.cons_append, List.nil_append, zoneDigits, dig_digit (mod10 _), dig_val (mod10 _), dig_colon (mod10 _), if_true, false_and, if_false]
  congr 2
  omega

theorem parseZone_print {off : Int} (h1 : off % 60 = 0) (h2 : off.natAbs < 360000) : parseZone (32 :: printZone off) = some (off, []) := by
  have hz := zoneDigits_pad (a := off.natAbs / 60 / 60) (b := off.natAbs / 60 % 60) (by omega) (by omega)
  have hs : isSpace 32 = true := by decide
  have e4 : ∀ x : Nat, (if (4 : Nat) = 2 then x * 100 else x) = x := fun x => if_neg (by decide)
  unfold printZone parseZone
  by_cases hn : off < 0
  · have hm : isSpace (chr '-') = false := by decide
    simp only [hn, if_true, List.dropWhile_cons, hs, hm, Bool.false_eq_true, ↓reduceIte, hz]
    rw [if_neg (by decide), if_pos (by decide), if_neg (by decide), e4, if_neg (by omega)]
    simp only [Option.some.injEq, Prod.mk.injEq, and_true]
    omega
  · have hm : isSpace (chr '+') = false := by decide
    simp only [hn, if_false, List.dropWhile_cons, hs, hm, Bool.false_eq_true, ↓reduceIte, hz]
    rw [if_neg (by decide), if_pos (by decide), if_neg (by decide), e4, if_neg (by omega), if_neg (by decide)]
    simp only [Option.some.injEq, Prod.mk.injEq, and_true]
    omega

theorem len_ab {w : Nat} (h : w ≤ 6) : ((dayNames[w]?.getD []).take 3).length = 3 := by rcases day_cases h with rfl | rfl | rfl | rfl | rfl | rfl | rfl <;> rfl
theorem len_b {m : Nat} (h : m ≤ 11) : ((monthNames[m]?.getD []).take 3).length = 3 := by
  rcases mon_cases h with rfl | rfl | rfl | rfl | rfl | rfl | rfl | rfl | rfl | rfl | rfl | rfl <;> rfl
theorem len_wd {w : Nat} (h : w ≤ 6) : 6 ≤ (dayNames[w]?.getD []).length ∧ (dayNames[w]?.getD []).length ≤ 9 := by rcases day_cases h with rfl | rfl | rfl | rfl | rfl | rfl | rfl <;> decide
theorem len_e (v : Nat) : (spad2 v).length = 2 := by unfold spad2; split <;> rfl

theorem len_rfc1123 {tm : Tm} (h : Valid tm) : (strftime rfc1123 tm).length = 29 := by
  have e : strftime rfc1123 tm = (dayNames[tm.wday]?.getD []).take 3 ++ chr ',' :: chr ' ' :: (pad2 tm.mday ++ chr ' ' :: ((monthNames[tm.mon]?.getD []).take 3 ++ chr ' ' :: (pad4 tm.year ++
      chr ' ' :: (pad2 tm.hour ++ chr ':' :: (pad2 tm.min ++ chr ':' :: (pad2 tm.sec ++ chr ' ' :: b! "GMT")))))) := rfl
  rw [e]
  simp [-List.length_take, len_ab h.wday, len_b h.mon, pad2, pad4]

theorem len_cookie {tm : Tm} (h : Valid tm) : (strftime cookie tm).length = 29 := by
  have e : strftime cookie tm = (dayNames[tm.wday]?.getD []).take 3 ++ chr ',' :: chr ' ' :: (pad2 tm.mday ++ chr '-' :: ((monthNames[tm.mon]?.getD []).take 3 ++ chr '-' :: (pad4 tm.year ++
      chr ' ' :: (pad2 tm.hour ++ chr ':' :: (pad2 tm.min ++ chr ':' :: (pad2 tm.sec ++ chr ' ' :: b! "GMT")))))) := rfl
  rw [e]
  simp [-List.length_take, len_ab h.wday, len_b h.mon, pad2, pad4]

theorem len_rfc850 {tm : Tm} (h : Valid tm) : 30 ≤ (strftime rfc850 tm).length ∧ (strftime rfc850 tm).length ≤ 33 := by
  have e : strftime rfc850 tm = dayNames[tm.wday]?.getD [] ++ chr ',' :: chr ' ' :: (pad2 tm.mday ++ chr '-' :: ((monthNames[tm.mon]?.getD []).take 3 ++ chr '-' :: (pad2 (tm.year % 100) ++
      chr ' ' :: (pad2 tm.hour ++ chr ':' :: (pad2 tm.min ++ chr ':' :: (pad2 tm.sec ++ chr ' ' :: b! "GMT")))))) := rfl
  rw [e]
  have := len_wd h.wday
  simp [-List.length_take, len_b h.mon, pad2, pad4]
  omega

theorem len_asctime {tm : Tm} (h : Valid tm) : (strftime asctime tm).length = 24 := by
  have e : strftime asctime tm = (dayNames[tm.wday]?.getD []).take 3 ++ chr ' ' :: ((monthNames[tm.mon]?.getD []).take 3 ++ chr ' ' :: (spad2 tm.mday ++ chr ' ' ::
      (pad2 tm.hour ++ chr ':' :: (pad2 tm.min ++ chr ':' :: (pad2 tm.sec ++ chr ' ' :: (pad4 tm.year ++ [])))))) := rfl
  rw [e]
  simp [-List.length_take, len_ab h.wday, len_b h.mon, pad2, pad4, len_e]

theorem len_git (tm : Tm) : (strftime git tm).length = 25 := rfl

end Verif.DateTime
