import Verif.Proofs.Futures
/-!
# C56 and C57: reading files, and DNS queries
-/
namespace Verif.Props
open Verif.Futures

/-- C57: the result of a query contains exactly the addresses that the resolver has given, with the requested port, IPv4 addresses being mapped to `::ffff:a.b.c.d`; none of them
occurs twice; and they are in the order in which the resolver has given each of them first. -/
theorem C57_addresses (port : Nat) (rs : List Rec) (res : List (Bytes × Nat)) (h : query port (some rs) = some res) :
    res.Nodup ∧
    (∀ a p, (a, p) ∈ res ↔ p = port ∧ ((∃ v4, .inet v4 ∈ rs ∧ a = [0, 0, 0, 0, 0, 0, 0, 0, 0, 0, 0xFF, 0xFF] ++ v4) ∨ .inet6 a ∈ rs)) ∧
    res.Pairwise (fun a b => firstAt a (rs.filterMap (convert port)) < firstAt b (rs.filterMap (convert port))) := by
  simp only [query, Option.some.injEq] at h
  subst h
  have hf := collect_query port rs
  refine ⟨hf.nodup, fun a p => ?_, hf.order⟩
  rw [hf.mem]
  unfold addrs
  rw [List.mem_filterMap]
  constructor
  · rintro ⟨r, hr, hc⟩
    cases r with
    | inet v4 => simp only [convert, Option.some.injEq, Prod.mk.injEq] at hc; exact ⟨hc.2.symm, .inl ⟨v4, hr, hc.1.symm⟩⟩
    | inet6 v6 => simp only [convert, Option.some.injEq, Prod.mk.injEq] at hc; exact ⟨hc.2.symm, .inr (hc.1 ▸ hr)⟩
    | other => exact nomatch hc
  · rintro ⟨rfl, ⟨v4, hr, rfl⟩ | hr⟩
    · exact ⟨_, hr, rfl⟩
    · exact ⟨_, hr, rfl⟩

/-- Non-vacuity: the resolver gives each address three times, for stream, datagram and raw sockets. -/
example : query 80 (some [.inet [10, 0, 0, 1], .inet [10, 0, 0, 1], .other, .inet6 (List.replicate 16 7), .inet [10, 0, 0, 1], .inet6 (List.replicate 16 7), .inet [10, 0, 0, 2]]) =
    some [([0, 0, 0, 0, 0, 0, 0, 0, 0, 0, 0xFF, 0xFF, 10, 0, 0, 1], 80), (List.replicate 16 7, 80), ([0, 0, 0, 0, 0, 0, 0, 0, 0, 0, 0xFF, 0xFF, 10, 0, 0, 2], 80)] := by decide

/-- C57: if the resolver fails, so does the query. -/
theorem C57_failure (port : Nat) : query port none = none := rfl

/-- C56 (part): a completed read has exactly the bytes from the requested offset, where negative offsets are from the end of the file, up to the limit or the end of the
file, however the file system splits them.  Missing: limits of 2^63 and greater, see `C56_limit_fails`. -/
theorem C56_slice_partial (file : Bytes) (limit : Nat) (hl : limit < 2 ^ 63) (req : Int) (rs : Reads) (start : Nat)
    (hstart : (0 ≤ req ∧ req = start) ∨ (req < 0 ∧ file.length + req = start)) (hs : start ≤ file.length) (hr : Honest file limit start 0 rs) :
    readFile limit req file.length rs = .ok ((file.drop start).take limit) := by
  have hseek : seek file.length req = some (start : Int) := by
    unfold seek
    rcases hstart with ⟨h0, h1⟩ | ⟨h0, h1⟩
    · split
      · rename_i hz; rw [hz] at h1; rw [← h1]
      · rw [if_pos (by omega), h1]
    · rw [if_neg (by omega), if_neg (by omega), if_neg (by omega), h1]
  unfold readFile
  rw [hseek]
  have := readLoop_honest hl hs hr (Nat.zero_le _) hs
  simpa using this

/-- Non-vacuity: for every file, limit and offset there is a way for the file system to satisfy the condition; and a file of six bytes which is read from the second one, three
bytes then one byte. -/
example : (∀ (file : Bytes) (limit start : Nat), start ≤ file.length → ∃ rs, Honest file limit start 0 rs) ∧
    Honest [1, 2, 3, 4, 5, 6] 4 1 0 [some [2, 3, 4], some [5]] ∧ readFile 4 (-5) 6 [some [2, 3, 4], some [5]] = .ok [2, 3, 4, 5] :=
  ⟨fun file limit start h => honest_exists file limit start h 0 (Nat.zero_le _) h,
   .more 0 3 _ (by decide) (by decide) (by decide) (by decide) (.more 3 1 _ (by decide) (by decide) (by decide) (by decide) (.done 4 [] (.inr rfl))), by decide⟩

/-- C56: a read fails if the offset lies past the end or before the start of the file, whatever the limit is. -/
theorem C56_past_end (limit : Nat) (req : Int) (size : Nat) (rs : Reads) (h : size < req ∨ size + req < 0) :
    readFile limit req size rs = .threw := by
  unfold readFile seek
  rcases h with h | h
  · rw [if_neg (by omega), if_pos (by omega)]
    simp only
    rw [readLoop.eq_def]
    have hr : reserve limit size req 0 < 0 := by unfold reserve; omega
    simp only [List.length_nil]
    rw [if_neg (by omega), if_pos hr]
  · rw [if_neg (by omega), if_neg (by omega), if_pos h]

/-- Non-vacuity. -/
example : readFile 10 7 6 [] = .threw ∧ readFile 10 (-7) 6 [] = .threw ∧ readFile 10 6 6 [] = .ok [] := ⟨by decide, by decide, by decide⟩

/-- C56: an error of `read()` makes the operation fail. -/
theorem C56_error (limit : Nat) (size offset : Int) (rs : Reads) (data : Bytes) (h : reserve limit size offset data.length ≠ 0) :
    readLoop limit size offset (none :: rs) data = .threw := by
  rw [readLoop.eq_def]
  simp only
  rw [if_neg h]
  split <;> rfl

example : readFile 4 0 6 [some [1], none] = .threw := by decide

/-- C56: even if the file is changed while it is being read, so that `read()` returns anything that fits into the buffer, there are never more bytes than the limit. -/
theorem C56_limit (limit : Nat) (hl : limit < 2 ^ 63) (size offset : Int) (rs : Reads) (out : Bytes) (hb : Bounded limit size offset rs 0)
    (h : readLoop limit size offset rs [] = .ok out) : out.length ≤ limit := readLoop_bound hl (Nat.zero_le _) hb h

/-- Non-vacuity: the file is truncated. -/
example : Bounded 4 100 0 [some [1, 2], some []] 0 ∧ readLoop 4 100 0 [some [1, 2], some []] [] = .ok [1, 2] := by
  refine ⟨⟨by decide, by decide, trivial⟩, by decide⟩

/-- C56 does not hold for limits of 2^63 and greater, such as `SIZE_MAX`: the operation fails. -/
theorem C56_limit_fails (limit : Nat) (h1 : 2 ^ 63 ≤ limit) (h2 : limit < 2 ^ 64) (size : Nat) (rs : Reads) : readFile limit 0 size rs = .threw := by
  unfold readFile seek
  rw [if_pos rfl]
  simp only
  rw [readLoop.eq_def]
  have hr : reserve limit size 0 0 < 0 := by
    unfold reserve int64
    have : ((limit : Int) - (0 : Nat)) % 2 ^ 64 = limit := by omega
    rw [this, if_neg (by omega)]
    omega
  simp only [List.length_nil]
  rw [if_neg (by omega), if_pos hr]

end Verif.Props
