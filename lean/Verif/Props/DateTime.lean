import Verif.Proofs.DateTimeText
/-!
# C06: dates and times
-/
namespace Verif.Props
open Verif.DateTime

/-- The times that can be printed: from 1900 on, and up to the last one that a `DateTime` can hold. -/
def Printable (ns : Int) : Prop := -2208988800000000000 ≤ ns ∧ ns ≤ 9223372036854775807

theorem seconds_eq {ns : Int} (h : Printable ns) : seconds ns = ns / 1000000000 ∧ clamp (seconds ns) = ns / 1000000000 := by
  obtain ⟨h1, h2⟩ := h
  have e : seconds ns = ns / 1000000000 := by unfold seconds; omega
  refine ⟨e, ?_⟩
  rw [e]; unfold clamp
  rw [if_neg (by omega), if_neg (by omega)]

theorem year_le {t off : Int} (h : t + off + epoch < 315569520000) : (breakDown t off).year ≤ 9999 := by
  rcases Int.lt_or_le (t + off + epoch) 0 with h0 | h0
  · have e : (t + off + epoch).toNat = 0 := by omega
    simp only [breakDown, e]; decide
  · have := (breakDown_year (t := t) (off := off) (a := 0) (b := 10000) (by simpa [yearDays] using h0) (by simpa [yearDays] using h)).2
    omega

theorem fromTimeT_ok {ns : Int} (h : Printable ns) (n : Nat) : fromTimeT (ns / 1000000000) n = .ok (ns / 1000000000 * 1000000000) n := by
  obtain ⟨h1, h2⟩ := h
  unfold fromTimeT
  rw [if_pos (by omega)]

theorem parseUtc_print {fmt : List Dir} {len : Nat} {ns : Int} (h : Printable ns) (tm' : Tm) (rest : Bytes)
    (hl : (strftime fmt (breakDown (ns / 1000000000) 0)).length = len ∨ (rest = [] ∧ (strftime fmt (breakDown (ns / 1000000000) 0)).length ≤ len))
    (hr : strptime fmt (strftime fmt (breakDown (ns / 1000000000) 0)) {} = some (tm', [])) (ht : timegm tm' = ns / 1000000000) :
    parseUtc fmt len (printUtc fmt ns ++ rest) = .ok (ns / 1000000000 * 1000000000) (printUtc fmt ns).length := by
  have e : printUtc fmt ns = strftime fmt (breakDown (ns / 1000000000) 0) := by unfold printUtc; rw [(seconds_eq h).2]
  have et : (printUtc fmt ns ++ rest).take len = printUtc fmt ns := by
    rw [e]
    rcases hl with hl | ⟨rfl, hl⟩
    · rw [← hl, List.take_left']; rfl
    · rw [List.append_nil]; exact List.take_of_length_le hl
  unfold parseUtc
  rw [et, e, hr]
  simp only
  rw [ht, fromTimeT_ok h]

theorem gm_time {ns : Int} (h : Printable ns) : timegm (breakDown (ns / 1000000000) 0) = ns / 1000000000 ∧ (breakDown (ns / 1000000000) 0).year ≤ 9999 := by
  obtain ⟨h1, h2⟩ := h
  refine ⟨?_, year_le (by unfold epoch; omega)⟩
  rw [timegm_breakDown _ _ (by unfold epoch; omega), Int.add_zero]

/-- C06: what is printed in the RFC 1123 format, with any text after it, parses back to the same second. -/
theorem C06_rfc1123 (ns : Int) (h : Printable ns) (rest : Bytes) : parse_rfc1123_partial (print_rfc1123_partial ns ++ rest) = .ok (ns / 1000000000 * 1000000000) 29 := by
  have hv := breakDown_valid (ns / 1000000000) 0
  have hg := gm_time h
  have hl := len_rfc1123 hv
  have := parseUtc_print h { breakDown (ns / 1000000000) 0 with off := 0 } rest (.inl hl) (read_rfc1123 hv hg.2) hg.1
  unfold parse_rfc1123_partial print_rfc1123_partial
  rw [this]
  unfold printUtc
  rw [(seconds_eq h).2, hl]

/-- C06: the same for cookies. -/
theorem C06_cookie (ns : Int) (h : Printable ns) (rest : Bytes) : parse_cookie_partial (print_cookie_partial ns ++ rest) = .ok (ns / 1000000000 * 1000000000) 29 := by
  have hv := breakDown_valid (ns / 1000000000) 0
  have hg := gm_time h
  have hl := len_cookie hv
  have := parseUtc_print h { breakDown (ns / 1000000000) 0 with off := 0 } rest (.inl hl) (read_cookie hv hg.2) hg.1
  unfold parse_cookie_partial print_cookie_partial
  rw [this]
  unfold printUtc
  rw [(seconds_eq h).2, hl]

/-- C06: the same for the asctime format. -/
theorem C06_asctime (ns : Int) (h : Printable ns) (rest : Bytes) : parse_asctime_partial (print_asctime_partial ns ++ rest) = .ok (ns / 1000000000 * 1000000000) 24 := by
  have hv := breakDown_valid (ns / 1000000000) 0
  have hg := gm_time h
  have hl := len_asctime hv
  have := parseUtc_print h { breakDown (ns / 1000000000) 0 with off := 0 } rest (.inl hl) (read_asctime hv hg.2) hg.1
  unfold parse_asctime_partial print_asctime_partial
  rw [this]
  unfold printUtc
  rw [(seconds_eq h).2, hl]

/-- C06 (part): the same for the RFC 850 format, for times from 1969 to 2068, and with no text after it.  Missing: other years, for which it does not hold,
see `C06_rfc850_century`; text after it, see `C06_rfc850_trailing`. -/
theorem C06_rfc850_partial (ns : Int) (h1 : -31536000000000000 ≤ ns) (h2 : ns < 3124224000000000000) :
    parse_rfc850_partial (print_rfc850_partial ns) = .ok (ns / 1000000000 * 1000000000) (print_rfc850_partial ns).length ∧
    30 ≤ (print_rfc850_partial ns).length ∧ (print_rfc850_partial ns).length ≤ 33 := by
  have h : Printable ns := ⟨by omega, by omega⟩
  have hv := breakDown_valid (ns / 1000000000) 0
  have hg := gm_time h
  have hl := len_rfc850 hv
  have hy := breakDown_year (t := ns / 1000000000) (off := 0) (a := 1969) (b := 2069) (by simp [yearDays, epoch]; omega) (by simp [yearDays, epoch]; omega)
  have hc : (if (breakDown (ns / 1000000000) 0).year % 100 ≥ 69 then (breakDown (ns / 1000000000) 0).year % 100 + 1900 else (breakDown (ns / 1000000000) 0).year % 100 + 2000) =
      (breakDown (ns / 1000000000) 0).year := by split <;> omega
  have hr := read_rfc850 hv
  rw [hc] at hr
  have := parseUtc_print h { breakDown (ns / 1000000000) 0 with off := 0 } [] (.inr ⟨rfl, hl.2⟩) hr hg.1
  rw [List.append_nil] at this
  refine ⟨this, ?_⟩
  unfold print_rfc850_partial printUtc
  rw [(seconds_eq h).2]
  exact hl

/-- C06 (part): the same for the Git format, which shows local time, whatever the local time zone is, and whenever its offset changes, if the offset is a multiple of
a minute.  Missing: offsets with seconds, for which it does not hold, see `C06_git_seconds`. -/
theorem C06_git_partial (zone : Int → Int) (mktime : Tm → Int) (ns : Int) (h : Printable ns) (rest : Bytes) (hz : zone (ns / 1000000000) % 60 = 0)
    (hz2 : (zone (ns / 1000000000)).natAbs ≤ 86400) :
    parse_git_partial mktime (print_git_partial zone ns ++ rest) = .ok (ns / 1000000000 * 1000000000) 25 := by
  have e : print_git_partial zone ns = strftime git (breakDown (ns / 1000000000) (zone (ns / 1000000000))) := by unfold print_git_partial; rw [(seconds_eq h).2]
  rw [e]
  have hv := breakDown_valid (ns / 1000000000) (zone (ns / 1000000000))
  have ho : (breakDown (ns / 1000000000) (zone (ns / 1000000000))).off = zone (ns / 1000000000) := rfl
  have hg := timegm_breakDown (ns / 1000000000) (zone (ns / 1000000000)) (by obtain ⟨h1, h2⟩ := h; unfold epoch; omega)
  have hy := year_le (t := ns / 1000000000) (off := zone (ns / 1000000000)) (by obtain ⟨h1, h2⟩ := h; unfold epoch; omega)
  generalize breakDown (ns / 1000000000) (zone (ns / 1000000000)) = tm at *
  have et : (strftime git tm ++ rest).take 25 = strftime git tm := by rw [← len_git tm, List.take_left']; rfl
  have eg : strftime git tm = strftime gitLocal tm ++ 32 :: printZone tm.off := by
    unfold git strftime
    rw [List.flatMap_append]
    simp [print1, chr]
  unfold parse_git_partial
  rw [et, len_git, eg, read_gitLocal hv hy]
  have hs : strptime [.z] (32 :: printZone tm.off) { tm with off := 0, wday := 0 } = some ({ tm with wday := 0 }, []) := by
    rw [strptime_cons (f := .z) (tm' := { tm with wday := 0 }) (s' := [])]
    · rfl
    · simp only [parse1]
      rw [parseZone_print (by rw [ho]; exact hz) (by rw [ho]; omega)]; rfl
  simp only [hs]
  have ht : timegm { tm with wday := 0 } = timegm tm := rfl
  rw [ht, hg, ho, Int.add_sub_cancel, fromTimeT_ok h]

theorem take_app {α : Type} (a b : List α) {n : Nat} (h : a.length ≤ n) : (a ++ b).take n = a ++ b.take (n - a.length) := by
  rw [List.take_append, List.take_of_length_le h]

/-- Texts with `-` after the day of the month are not in the RFC 1123 format. -/
theorem not_rfc1123 {nm : Bytes} {d : Nat} (hn : ∃ w ≤ 6, nm = dayNames[w]?.getD [] ∨ nm = (dayNames[w]?.getD []).take 3) (h1 : 1 ≤ d) (h2 : d ≤ 31) (r : Bytes) :
    parse_rfc1123_partial (nm ++ chr ',' :: chr ' ' :: (pad2 d ++ chr '-' :: r)) = .fail := by
  have hlen : (nm ++ chr ',' :: chr ' ' :: (pad2 d ++ [chr '-'])).length ≤ 29 := by
    obtain ⟨w, hw, rfl | rfl⟩ := hn
    · have := (len_wd hw).2; simp [pad2]; omega
    · have := len_ab hw
      simp only [List.length_append, this]; simp [pad2]
  have e : (nm ++ chr ',' :: chr ' ' :: (pad2 d ++ chr '-' :: r)).take 29 =
      nm ++ chr ',' :: chr ' ' :: (pad2 d ++ chr '-' :: r.take (29 - (nm ++ chr ',' :: chr ' ' :: (pad2 d ++ [chr '-'])).length)) := by
    have := take_app (nm ++ chr ',' :: chr ' ' :: (pad2 d ++ [chr '-'])) r hlen
    simpa using this
  unfold parse_rfc1123_partial parseUtc
  rw [e]
  generalize r.take _ = r'
  have hf : strptime rfc1123 (nm ++ chr ',' :: chr ' ' :: (pad2 d ++ chr '-' :: r')) {} = none := by
    rw [show rfc1123 = .ab :: .lit (chr ',') :: .space :: .d :: .space :: .b :: .space :: .Y :: .space :: (hms ++ gmt) from rfl]
    have hb : ∀ fs tm, strptime (.space :: .b :: fs) (chr '-' :: r') tm = none := fun _ _ => rfl
    obtain ⟨w, hw, rfl | rfl⟩ := hn
    · rw [show ∀ fs s tm, strptime (.ab :: fs) s tm = strptime (.wd :: fs) s tm from fun _ _ _ => rfl, st_wd hw (by decide), st_lit, st_sp_pad2, st_d h1 h2, hb]
    · rw [st_ab hw (by decide), st_lit, st_sp_pad2, st_d h1 h2, hb]
  rw [hf]

/-- C06: `parse()` finds out which of the formats it is, for all of them. -/
theorem C06_parse (mktime : Tm → Int) (ns : Int) (h : Printable ns) :
    parse mktime 29 (print_rfc1123_partial ns) = .ok (ns / 1000000000 * 1000000000) 29 ∧
    parse mktime 24 (print_asctime_partial ns) = .ok (ns / 1000000000 * 1000000000) 24 ∧
    parse mktime 29 (print_cookie_partial ns) = .ok (ns / 1000000000 * 1000000000) 29 ∧
    (-31536000000000000 ≤ ns → ns < 3124224000000000000 →
      parse mktime (print_rfc850_partial ns).length (print_rfc850_partial ns) = .ok (ns / 1000000000 * 1000000000) (print_rfc850_partial ns).length) ∧
    (∀ zone : Int → Int, zone (ns / 1000000000) % 60 = 0 → (zone (ns / 1000000000)).natAbs ≤ 86400 →
      parse mktime 25 (print_git_partial zone ns) = .ok (ns / 1000000000 * 1000000000) 25) := by
  have hv := breakDown_valid (ns / 1000000000) 0
  have hcl : clamp (seconds ns) = ns / 1000000000 := (seconds_eq h).2
  refine ⟨?_, ?_, ?_, fun h1 h2 => ?_, fun zone hz hz2 => ?_⟩
  · have := C06_rfc1123 ns h []
    rw [List.append_nil] at this
    unfold parse
    rw [if_pos (by decide), this]; rfl
  · have := C06_asctime ns h []
    rw [List.append_nil] at this
    unfold parse
    rw [if_neg (by decide), if_neg (by decide), if_pos (by decide), this]; rfl
  · have := C06_cookie ns h []
    rw [List.append_nil] at this
    have e : print_cookie_partial ns = (dayNames[(breakDown (ns / 1000000000) 0).wday]?.getD []).take 3 ++ chr ',' :: chr ' ' :: (pad2 (breakDown (ns / 1000000000) 0).mday ++ chr '-' ::
        ((monthNames[(breakDown (ns / 1000000000) 0).mon]?.getD []).take 3 ++ strftime (.lit (chr '-') :: .Y :: .space :: (hms ++ gmt)) (breakDown (ns / 1000000000) 0))) := by
      unfold print_cookie_partial printUtc; rw [hcl]; rfl
    have hf : parse_rfc1123_partial (print_cookie_partial ns) = .fail := by
      rw [e]; exact not_rfc1123 ⟨_, hv.wday, .inr rfl⟩ hv.pos hv.mday _
    have ha : parse_asctime_partial (print_cookie_partial ns) = .fail := by
      rw [e]
      generalize (pad2 _ ++ _ : Bytes) = r
      unfold parse_asctime_partial parseUtc
      rw [take_app _ _ (by rw [len_ab hv.wday]; decide), len_ab hv.wday, show asctime = .ab :: .space :: .b :: .space :: .e :: .space :: (hms ++ [.space, .Y]) from rfl,
        show (24 - 3) = 20 + 1 from rfl, List.take_succ_cons, st_ab hv.wday (by decide)]
      rfl
    unfold parse
    rw [if_pos (by decide), if_neg (by decide), if_pos (by decide), if_pos (by decide), hf, ha, this]; rfl
  · obtain ⟨h3, h4, h5⟩ := C06_rfc850_partial ns h1 h2
    have e : print_rfc850_partial ns = dayNames[(breakDown (ns / 1000000000) 0).wday]?.getD [] ++ chr ',' :: chr ' ' :: (pad2 (breakDown (ns / 1000000000) 0).mday ++ chr '-' ::
        ((monthNames[(breakDown (ns / 1000000000) 0).mon]?.getD []).take 3 ++ strftime (.lit (chr '-') :: .y :: .space :: (hms ++ gmt)) (breakDown (ns / 1000000000) 0))) := by
      unfold print_rfc850_partial printUtc; rw [hcl]; rfl
    have hf : parse_rfc1123_partial (print_rfc850_partial ns) = .fail := by
      rw [e]; exact not_rfc1123 ⟨_, hv.wday, .inl rfl⟩ hv.pos hv.mday _
    unfold parse
    rw [if_pos (by omega), if_pos h4, hf, h3]
    have : ∃ k, (print_rfc850_partial ns).length = k + 1 := ⟨(print_rfc850_partial ns).length - 1, by omega⟩
    obtain ⟨k, hk⟩ := this
    rw [hk]; rfl
  · have := C06_git_partial zone mktime ns h [] hz hz2
    rw [List.append_nil] at this
    have ha : parse_asctime_partial (print_git_partial zone ns) = .fail := by
      have e : print_git_partial zone ns = strftime git (breakDown (ns / 1000000000) (zone (ns / 1000000000))) := by unfold print_git_partial; rw [hcl]
      obtain ⟨r, hr⟩ : ∃ r, (print_git_partial zone ns).take 24 = dig ((breakDown (ns / 1000000000) (zone (ns / 1000000000))).year / 1000 % 10) :: r := by rw [e]; exact ⟨_, rfl⟩
      have hd : ∀ k : Fin 10, ∀ nm ∈ dayNames, ∀ a ∈ nm.head?, lower a ≠ lower (dig k) := by decide +kernel
      have hm : matchName (dig ((breakDown (ns / 1000000000) (zone (ns / 1000000000))).year / 1000 % 10) :: r) dayNames = none := by
        have hk := hd ⟨(breakDown (ns / 1000000000) (zone (ns / 1000000000))).year / 1000 % 10, Nat.mod_lt _ (by decide)⟩
        simp only at hk
        generalize dig ((breakDown (ns / 1000000000) (zone (ns / 1000000000))).year / 1000 % 10) = x at *
        simp only [dayNames, List.mem_cons, List.not_mem_nil, or_false, forall_eq_or_imp, forall_eq, List.head?_cons, Option.mem_some_iff, forall_eq'] at hk
        obtain ⟨k1, k2, k3, k4, k5, k6, k7⟩ := hk
        simp [dayNames, matchName, matchString, k1, k2, k3, k4, k5, k6, k7]
      unfold parse_asctime_partial parseUtc
      rw [hr]
      have : strptime asctime (dig ((breakDown (ns / 1000000000) (zone (ns / 1000000000))).year / 1000 % 10) :: r) {} = none := by
        rw [show asctime = .ab :: .space :: .b :: .space :: .e :: .space :: (hms ++ [.space, .Y]) from rfl, strptime]
        simp only [parse1, hm, Option.map_none]
      rw [this]
    unfold parse
    rw [if_neg (by decide), if_neg (by decide), if_pos (by decide), if_neg (by decide), if_pos (by decide), ha, this]; rfl

/-- C06: earlier times are printed as the first second of 1900; except those that `C06_lowest` is about. -/
theorem C06_clamped (ns : Int) (h1 : -9223372036000000000 ≤ ns) (h2 : ns < -2208988800000000000) (fmt : List Dir) : printUtc fmt ns = printUtc fmt (-2208988800000000000) := by
  have e1 : clamp (seconds ns) = -2208988800 := by
    have : seconds ns = ns / 1000000000 := by unfold seconds; omega
    rw [this]; unfold clamp
    split
    · rfl
    · omega
  unfold printUtc
  rw [e1]; rfl

theorem dt_weekday {w : Nat} (h : w ≤ 6) : dayNames[w]?.getD [] = weekday w := by rcases day_cases h with rfl | rfl | rfl | rfl | rfl | rfl | rfl <;> rfl

theorem dt_month {m : Nat} (h : m ≤ 11) : (monthNames[m]?.getD []).take 3 = month3 (m + 1) := by
  have : ∀ m : Fin 12, (monthNames[m.val]?.getD []).take 3 = month3 (m.val + 1) := by decide +kernel
  exact this ⟨m, by omega⟩

theorem dt_texts {tm : Tm} (hv : Valid tm) :
    strftime rfc1123 tm = rfc1123Text tm ∧ strftime rfc850 tm = rfc850Text tm ∧ strftime asctime tm = asctimeText tm ∧ strftime cookie tm = cookieText tm := by
  have hw := dt_weekday hv.wday
  have hm := dt_month hv.mon
  have hy : pad2 (tm.year % 100) = last2 tm.year := by
    show [UInt8.ofNat _, UInt8.ofNat _] = [UInt8.ofNat _, UInt8.ofNat _]
    rw [show tm.year % 100 / 10 % 10 = tm.year / 10 % 10 by omega, show tm.year % 100 % 10 = tm.year % 10 by omega]
  refine ⟨?_, ?_, ?_, ?_⟩ <;>
    simp only [strftime, rfc1123, rfc850, asctime, cookie, hms, gmt, List.cons_append, List.nil_append, List.append_assoc, List.flatMap_cons, List.flatMap_nil, List.append_nil, print1, hw, hm, hy,
      rfc1123Text, rfc850Text, asctimeText, cookieText, clockText, Tm.date] <;> rfl

theorem dt_git (tm : Tm) (minutes : Int) (h : tm.off = minutes * 60) : strftime git tm = gitText tm minutes := by
  have h1 : tm.off.natAbs / 60 = minutes.natAbs := by rw [h, Int.natAbs_mul]; exact Nat.mul_div_cancel _ (by decide)
  simp only [strftime, git, gitLocal, hms, List.cons_append, List.nil_append, List.append_assoc, List.flatMap_cons, List.flatMap_nil, List.append_nil, print1, printZone, h1, gitText, clockText, Tm.date]
  by_cases h0 : minutes < 0
  · rw [if_pos (by omega), if_pos h0]; rfl
  · rw [if_neg (by omega), if_neg h0]; rfl

/-- C06: what is printed is the date of the second, with English names of days and months, in the formats of RFC 9110, of cookies, and of Git.  C06_calendar says what date it is. -/
theorem C06_texts (ns : Int) (h : Printable ns) :
    print_rfc1123_partial ns = rfc1123Text (breakDown (ns / 1000000000) 0) ∧ print_rfc850_partial ns = rfc850Text (breakDown (ns / 1000000000) 0) ∧
    print_asctime_partial ns = asctimeText (breakDown (ns / 1000000000) 0) ∧ print_cookie_partial ns = cookieText (breakDown (ns / 1000000000) 0) ∧
    ∀ (zone : Int → Int) (minutes : Int), zone (ns / 1000000000) = minutes * 60 → print_git_partial zone ns = gitText (breakDown (ns / 1000000000) (minutes * 60)) minutes := by
  have hv := breakDown_valid (ns / 1000000000) 0
  have e : ∀ fmt, printUtc fmt ns = strftime fmt (breakDown (ns / 1000000000) 0) := fun fmt => by unfold printUtc; rw [(seconds_eq h).2]
  refine ⟨(e _).trans (dt_texts hv).1, (e _).trans (dt_texts hv).2.1, (e _).trans (dt_texts hv).2.2.1, (e _).trans (dt_texts hv).2.2.2, ?_⟩
  intro zone minutes hz
  unfold print_git_partial
  rw [(seconds_eq h).2]
  dsimp only
  rw [hz]
  exact dt_git _ minutes rfl

/-- C06: the date that is printed is the right one: it begins with 1970-01-01, a Thursday, advances by one day every 86400 seconds, and the time of the day is the same.  (With
an offset, too.) -/
theorem C06_calendar (t off : Int) (h : 0 ≤ t + off + epoch) :
    (breakDown 0 0).date = ⟨1970, 1, 1⟩ ∧ (breakDown 0 0).wday = 4 ∧
    (breakDown (t + 86400) off).date = (breakDown t off).date.next ∧ (breakDown (t + 86400) off).wday = ((breakDown t off).wday + 1) % 7 ∧
    ((breakDown t off).hour * 3600 + (breakDown t off).min * 60 + (breakDown t off).sec : Nat) = (t + off) % 86400 ∧
    (breakDown t off).date.valid ∧ (breakDown t off).hour < 24 ∧ (breakDown t off).min < 60 ∧ (breakDown t off).sec < 60 := by
  have hv := breakDown_valid t off
  refine ⟨by decide +kernel, by decide +kernel, breakDown_next t off h, ?_, ?_, ?_, ?_, ?_, ?_⟩
  · simp only [breakDown]; omega
  · simp only [breakDown]; unfold epoch at *; omega
  · have hd := breakDown_day t off
    refine ⟨Nat.le_add_left _ _, Nat.succ_le_succ hd.mon, hd.pos, ?_⟩
    have := hd.len
    rw [monthLen_eq hd.mon] at this
    exact this
  · have := hv.hour; omega
  · have := hv.min; omega
  · have := hv.sec; omega

/-- Non-vacuity, and the examples in the documentation: `Sun, 06 Nov 1994 08:49:37 GMT` and so on. -/
example : Printable 784111777000000000 ∧
    [print_rfc1123_partial 784111777000000000, print_rfc850_partial 784111777000000000, print_asctime_partial 784111777000000000, print_cookie_partial 784111777000000000,
      print_git_partial (fun _ => 28800) 784111777000000000] = samples ∧
    samples.map (fun s => parse timegm s.length s) = [.ok 784111777000000000 29, .ok 784111777000000000 30, .ok 784111777000000000 24, .ok 784111777000000000 29, .ok 784111777000000000 25] :=
  ⟨⟨by decide, by decide⟩, by decide +kernel, by decide +kernel⟩

/-- C06 does not hold for the RFC 850 format in general: the last second of 1968 parses back as one of 2068. -/
theorem C06_rfc850_century : print_rfc850_partial (-31536001000000000) = b! "Tuesday, 31-Dec-68 23:59:59 GMT" ∧
    parse_rfc850_partial (b! "Tuesday, 31-Dec-68 23:59:59 GMT") = .ok 3124223999000000000 31 := ⟨by decide +kernel, by decide +kernel⟩

/-- C06: a date in the RFC 850 format is not recognized if more text follows it, unlike all other formats. -/
theorem C06_rfc850_trailing : parse_rfc850_partial (b! "Sunday, 06-Nov-94 08:49:37 GMT") = .ok 784111777000000000 30 ∧
    parse_rfc850_partial (b! "Sunday, 06-Nov-94 08:49:37 GMT; x") = .fail := ⟨by decide +kernel, by decide +kernel⟩

/-- C06 does not hold for the Git format if the offset of the time zone has seconds, as in Shanghai before 1901: 43 seconds are lost. -/
theorem C06_git_seconds : print_git_partial (fun _ => 29143) (-2208988800000000000) = b! "1900-01-01 08:05:43 +0805" ∧
    parse_git_partial timegm (b! "1900-01-01 08:05:43 +0805") = .ok (-2208988757000000000) 25 := ⟨by decide +kernel, by decide +kernel⟩

/-- The least values that a `DateTime` can have are printed as times in the year 2262. -/
theorem C06_lowest : print_rfc1123_partial (-9223372036854775808) = b! "Fri, 11 Apr 2262 23:47:16 GMT" := by decide +kernel

/-- A date after 2262, such as the one that is used in cookies that shall not expire, does not fit into a `DateTime`, but is not rejected: signed overflow. -/
theorem C06_overflow : parse timegm 29 (b! "Fri, 31 Dec 9999 23:59:59 GMT") = .overflow := by decide +kernel

/-- `parse()` gives zero for an empty string, which is its length, so the constructor does not throw, although nothing has been parsed. -/
theorem C06_empty (mktime : Tm → Int) (rest : Bytes) : construct mktime 0 rest = some .fail ∧ construct mktime 1 (b! "x") = none := ⟨rfl, rfl⟩

/-- C06: constructing from a string succeeds only if the whole string is a date and a time; in particular one in the RFC 1123 format is accepted as it is, and rejected with anything
after it. -/
theorem C06_construct (mktime : Tm → Int) :
    (∀ n str ns k, construct mktime n str = some (.ok ns k) → k = n ∧ parse mktime n str = .ok ns n) ∧
    ∀ ns, Printable ns → ∀ rest : Bytes, construct mktime (29 + rest.length) (print_rfc1123_partial ns ++ rest) = if rest = [] then some (.ok (ns / 1000000000 * 1000000000) 29) else none := by
  constructor
  · intro n str ns k h
    unfold construct at h
    split at h
    · cases h
    · split at h
      · cases h
      · rename_i hp hk
        cases h
        have hk : _ = n := Classical.byContradiction hk
        rw [hk] at hp
        exact ⟨hk, hp⟩
    · split at h <;> cases h
  · intro ns h rest
    have hp : parse mktime (29 + rest.length) (print_rfc1123_partial ns ++ rest) = .ok (ns / 1000000000 * 1000000000) 29 := by
      unfold parse
      rw [if_pos (by omega), C06_rfc1123 ns h rest]; rfl
    unfold construct
    rw [hp]
    cases rest <;> simp

example : Printable 784111777000000000 ∧ construct timegm 29 (b! "Sun, 06 Nov 1994 08:49:37 GMT") = some (.ok 784111777000000000 29) ∧
    construct timegm 30 (b! "Sun, 06 Nov 1994 08:49:37 GMT ") = none := ⟨⟨by decide, by decide⟩, by decide +kernel, by decide +kernel⟩

/-- `parse()` looks at characters after the end of the string. -/
theorem C06_reads_past_end : parse timegm 19 (b! "1994-11-06 16:49:37") = .ok 784140577000000000 19 ∧ parse timegm 19 (b! "1994-11-06 16:49:37 +0800") = .ok 784111777000000000 25 ∧
    parse timegm 19 (b! "1994-11-06 16:49:37, x") = .fail := ⟨by decide +kernel, by decide +kernel, by decide +kernel⟩

end Verif.Props
