import Verif.Proofs.HttpExchange
/-! # A library that reads requests and responses

It collects the lines of a head, and hands over everything when the head is complete. -/
namespace Verif.HttpExchange
open Verif.HttpLib Verif.Spec Verif.Spec.Exchange
open Verif.Http (ascii_lower)

/-- How the end of a payload is found. -/
inductive Frame
  | none
  | length (n : Nat)
  | chunked
  | stream
deriving DecidableEq, Repr

/-- The states of the library. -/
inductive LineState
  | head (ls : List Bytes) (cur : Bytes)
  | ready (f : Frame)
  | raw (n : Nat)
  | size (cur : Bytes)
  | chunk (n : Nat)
  | skip (n : Nat) (last : Bool)
  | rest
deriving DecidableEq, Repr

/-- What a head means: the pieces of text, the method, the status, whether the connection stays open, and where the payload ends. -/
structure HeadInfo where
  data : List Data
  method : Bytes
  status : Nat
  keep : Bool
  frame : Frame

def decVal (d : Bytes) : Nat := d.foldl (fun n c => n * 10 + (c.toNat - 48)) 0

def hexDigitVal (c : Byte) : Nat := if c.toNat ≤ 57 then c.toNat - 48 else if c.toNat ≤ 70 then c.toNat - 55 else c.toNat - 87

def hexVal (d : Bytes) : Nat := d.foldl (fun n c => n * 16 + hexDigitVal c) 0

def feed (read : List Bytes → Option HeadInfo) : LineState → Byte → LineState × List Data × End
  | .head ls cur, b =>
    if b = 10 ∧ cur.getLast? = some 13 then
      if cur = [13] then
        match read ls with
        | some i => (.ready i.frame, i.data, .headers i.method i.status i.keep)
        | none => (.head [] [], [], .bad .other)
      else (.head (ls ++ [cur.dropLast]) [], [], .go)
    else (.head ls (cur ++ [b]), [], .go)
  | .ready .none, _ => (.head [] [], [], .done)
  | .ready (.length 0), _ => (.head [] [], [], .done)
  | .ready (.length (n + 1)), _ => (.raw (n + 1), [], .go)
  | .ready .chunked, _ => (.size [], [], .go)
  | .ready .stream, _ => (.rest, [], .go)
  | .rest, b => (.rest, [.body [b]], .go)
  | .raw n, b => if n ≤ 1 then (.head [] [], [.body [b]], .done) else (.raw (n - 1), [.body [b]], .go)
  | .size cur, b =>
    if b = 10 ∧ cur.getLast? = some 13 then
      if hexVal cur.dropLast = 0 then (.skip 2 true, [], .go) else (.chunk (hexVal cur.dropLast), [], .go)
    else (.size (cur ++ [b]), [], .go)
  | .chunk n, b => if n ≤ 1 then (.skip 2 false, [.body [b]], .go) else (.chunk (n - 1), [.body [b]], .go)
  | .skip n last, _ =>
    if n ≤ 1 then if last then (.head [] [], [], .done) else (.size [], [], .go)
    else (.skip (n - 1) last, [], .go)

def lineLib (read : List Bytes → Option HeadInfo) : Lib where
  σ := LineState
  init := .head [] []
  micro := feed read
  eof st := if st = .head [] [] then (st, .go) else if st = .rest then (.head [] [], .done) else (.head [] [], .bad .other)
  skip st := match st with
    | .ready _ => .ready .none
    | st => st

/-- Whether it is behind the headers. -/
def LineState.body : LineState → Prop
  | .head _ _ => False
  | _ => True

theorem lineLib_ok (read : List Bytes → Option HeadInfo) (hr : ∀ ls i, read ls = some i → ∀ x, .body x ∉ i.data) : LibOk (lineLib read) LineState.body := by
  constructor
  case init => simp [LineState.body, lineLib]
  case head_data =>
    intro st b h x
    cases st <;> simp only [LineState.body, not_true_eq_false] at h
    simp only [lineLib, feed]
    repeat' split
    all_goals first
      | (rename_i hi; exact hr _ _ hi x)
      | simp
  case eof_head =>
    intro st h
    cases st <;> simp only [LineState.body, not_true_eq_false] at h
    rename_i ls cur
    simp only [lineLib]
    split
    · exact .inl ⟨rfl, fun h => h⟩
    · exact .inr ⟨_, rfl⟩
  case eof_body =>
    intro st h
    cases st <;> simp_all [LineState.body, lineLib]
  case eof_bad =>
    intro st e h
    simp only [lineLib] at h
    split at h
    · cases h
    · split at h
      · cases h
      · cases h; exact ⟨by simp, by simp⟩
  all_goals
    intro st b
    cases st
    case ready f => cases f <;> simp [lineLib, feed, LineState.body] <;> (rename_i n; cases n <;> simp [feed])
    all_goals
      simp only [lineLib, feed, LineState.body]
      repeat' split
      all_goals simp_all

theorem lineLib_reply (read : List Bytes → Option HeadInfo) (hr : ∀ ls i, read ls = some i → ∀ x, .body x ∉ i.data) : Client.ReplyLib (lineLib read) LineState.body := by
  refine { lineLib_ok read hr with body_status := ?_, skip := ?_ }
  · intro st b h n x
    cases st
    case head => exact absurd h (by simp [LineState.body])
    case ready f => cases f <;> simp [lineLib, feed] <;> (rename_i n; cases n <;> simp [feed])
    all_goals
      simp only [lineLib, feed]
      repeat' split
      all_goals simp
  · intro st h
    cases st <;> simp_all [lineLib, LineState.body]

/-! ### How it reads -/

theorem emits_trans {L : Lib} {a b c : L.σ} {v w : Bytes} {d e : List Data} (h1 : Emits L a v d b) (h2 : Emits L b w e c) : Emits L a (v ++ w) (d ++ e) c := by
  induction h1 with
  | nil => exact h2
  | cons st x w ds st' hg _ ih =>
    rw [List.cons_append, List.append_assoc]
    exact .cons st x _ _ _ hg (ih h2)

theorem emits_one {L : Lib} {a b : L.σ} {x : Byte} {d : List Data} (h : L.micro a x = (b, d, .go)) : Emits L a [x] d b := by
  have := Emits.cons (L := L) a x [] [] b (by rw [h]) (by rw [h]; exact .nil _)
  rw [h] at this
  simpa using this

/-- The library reads the end of a message. -/
def Finishes (L : Lib) (st : L.σ) (w : Bytes) (ds : List Data) (st' : L.σ) : Prop :=
  ∃ w3 e d3 d4 s3, w = w3 ++ [e] ∧ Emits L st w3 d3 s3 ∧ L.micro s3 e = (st', d4, .done) ∧ ds = d3 ++ d4

theorem finishes_one {L : Lib} {a b : L.σ} {x : Byte} {d : List Data} (h : L.micro a x = (b, d, .done)) : Finishes L a [x] d b :=
  ⟨[], x, [], d, a, rfl, .nil _, h, rfl⟩

theorem finishes_after {L : Lib} {a b c : L.σ} {v w : Bytes} {d e : List Data} (h1 : Emits L a v d b) (h2 : Finishes L b w e c) : Finishes L a (v ++ w) (d ++ e) c := by
  obtain ⟨w3, x, d3, d4, s3, rfl, g1, g2, rfl⟩ := h2
  exact ⟨v ++ w3, x, d ++ d3, d4, s3, by simp, emits_trans h1 g1, g2, by simp⟩

section
variable (read : List Bytes → Option HeadInfo)

theorem head_chars (ls : List Bytes) (l : Bytes) : ∀ cur, (10 : Byte) ∉ l → Emits (lineLib read) (.head ls cur) l [] (.head ls (cur ++ l)) := by
  induction l with
  | nil => intro cur _; rw [List.append_nil]; exact .nil _
  | cons x t ih =>
    intro cur h
    have hx : x ≠ 10 := fun e => h (by simp [e])
    have h1 : Emits (lineLib read) (.head ls cur) [x] [] (.head ls (cur ++ [x])) := emits_one (by simp [lineLib, feed, hx])
    have h2 := ih (cur ++ [x]) (fun e => h (by simp [e]))
    rw [List.append_assoc] at h2
    exact emits_trans h1 h2

theorem head_line (ls : List Bytes) (l : Bytes) (h : (10 : Byte) ∉ l) (hn : l ≠ []) : Emits (lineLib read) (.head ls []) (l ++ b! "\r\n") [] (.head (ls ++ [l]) []) := by
  have h1 := head_chars read ls (l ++ [13]) [] (by simp [h])
  have h2 : Emits (lineLib read) (.head ls (l ++ [13])) [10] [] (.head (ls ++ [l]) []) := by
    apply emits_one
    have : l ++ [13] ≠ [13] := by
      intro e
      exact hn (List.append_cancel_right (bs := [13]) (cs := []) e)
    simp only [lineLib, feed, List.getLast?_append]
    simp [hn]
  have := emits_trans h1 h2
  simpa using this

theorem head_lines (l : List Bytes) : ∀ ls, (∀ x ∈ l, (10 : Byte) ∉ x ∧ x ≠ []) → Emits (lineLib read) (.head ls []) (l.flatMap (fun x => x ++ b! "\r\n")) [] (.head (ls ++ l) []) := by
  induction l with
  | nil => intro ls _; rw [List.append_nil]; exact .nil _
  | cons x t ih =>
    intro ls h
    have h1 := head_line read ls x (h x (by simp)).1 (h x (by simp)).2
    have h2 := ih (ls ++ [x]) (fun y hy => h y (by simp [hy]))
    have := emits_trans h1 h2
    simpa using this

theorem raw_all (w : Bytes) : ∀ n, w.length = n → 0 < n → Finishes (lineLib read) (.raw n) w (w.map (fun x => .body [x])) (.head [] []) := by
  induction w with
  | nil => intro n h1 h2; simp at h1; omega
  | cons x t ih =>
    intro n h1 h2
    cases t with
    | nil =>
      simp only [List.length_cons, List.length_nil] at h1
      exact finishes_one (by simp [lineLib, feed, show n ≤ 1 by omega])
    | cons y t =>
      simp only [List.length_cons] at h1
      have h3 : Emits (lineLib read) (.raw n) [x] [.body [x]] (.raw (n - 1)) := emits_one (by simp [lineLib, feed, show ¬ n ≤ 1 by omega])
      exact finishes_after h3 (ih (n - 1) (by simp only [List.length_cons]; omega) (by omega))

theorem chunk_all (w : Bytes) : ∀ n, w.length = n → 0 < n → Emits (lineLib read) (.chunk n) w (w.map (fun x => .body [x])) (.skip 2 false) := by
  induction w with
  | nil => intro n h1 h2; simp at h1; omega
  | cons x t ih =>
    intro n h1 h2
    cases t with
    | nil =>
      simp only [List.length_cons, List.length_nil] at h1
      exact emits_one (by simp [lineLib, feed, show n ≤ 1 by omega])
    | cons y t =>
      simp only [List.length_cons] at h1
      have h3 : Emits (lineLib read) (.chunk n) [x] [.body [x]] (.chunk (n - 1)) := emits_one (by simp [lineLib, feed, show ¬ n ≤ 1 by omega])
      exact emits_trans h3 (ih (n - 1) (by simp only [List.length_cons]; omega) (by omega))

theorem size_chars (l : Bytes) : ∀ cur, (10 : Byte) ∉ l → Emits (lineLib read) (.size cur) l [] (.size (cur ++ l)) := by
  induction l with
  | nil => intro cur _; rw [List.append_nil]; exact .nil _
  | cons x t ih =>
    intro cur h
    have hx : x ≠ 10 := fun e => h (by simp [e])
    have h1 : Emits (lineLib read) (.size cur) [x] [] (.size (cur ++ [x])) := emits_one (by simp [lineLib, feed, hx])
    have h2 := ih (cur ++ [x]) (fun e => h (by simp [e]))
    rw [List.append_assoc] at h2
    exact emits_trans h1 h2

theorem hexDigit_val {d : Byte} {v : Nat} (h : HexDigit d v) : hexDigitVal d = v ∧ d ≠ 10 := by
  cases h with
  | dec v h =>
    have : ∀ v : Fin 10, hexDigitVal (UInt8.ofNat (0x30 + v.val)) = v.val ∧ UInt8.ofNat (0x30 + v.val) ≠ 10 := by decide
    exact this ⟨v, h⟩
  | upper v h h' =>
    have : ∀ v : Fin 6, hexDigitVal (UInt8.ofNat (0x41 + (v.val + 10 - 10))) = v.val + 10 ∧ UInt8.ofNat (0x41 + (v.val + 10 - 10)) ≠ 10 := by decide
    have := this ⟨v - 10, by omega⟩
    simpa [show v - 10 + 10 = v by omega] using this
  | lower v h h' =>
    have : ∀ v : Fin 6, hexDigitVal (UInt8.ofNat (0x61 + (v.val + 10 - 10))) = v.val + 10 ∧ UInt8.ofNat (0x61 + (v.val + 10 - 10)) ≠ 10 := by decide
    have := this ⟨v - 10, by omega⟩
    simpa [show v - 10 + 10 = v by omega] using this

theorem hexNum_val {ds : Bytes} {n : Nat} (h : HexNum ds n) : hexVal ds = n ∧ (10 : Byte) ∉ ds := by
  induction h with
  | nil => exact ⟨rfl, by simp⟩
  | snoc _ hd ih =>
    have := hexDigit_val hd
    refine ⟨?_, ?_⟩
    · simp only [hexVal, List.foldl_append, List.foldl_cons, List.foldl_nil] at ih ⊢
      rw [ih.1, this.1]
    · simp [ih.2, Ne.symm this.2]

theorem decNum_val {ds : Bytes} {n : Nat} (h : DecNum ds n) : decVal ds = n := by
  induction h with
  | nil => rfl
  | snoc v _ hv ih =>
    simp only [decVal, List.foldl_append, List.foldl_cons, List.foldl_nil] at ih ⊢
    rw [ih]
    simp only [UInt8.toNat_ofNat']
    omega

theorem size_line {ds : Bytes} {n : Nat} (h : HexNum ds n) : Emits (lineLib read) (.size []) (ds ++ b! "\r\n") [] (if n = 0 then .skip 2 true else .chunk n) := by
  have h1 := size_chars read (ds ++ [13]) [] (by simp [(hexNum_val h).2])
  have h2 : Emits (lineLib read) (.size (ds ++ [13])) [10] [] (if n = 0 then .skip 2 true else .chunk n) := by
    apply emits_one
    simp only [lineLib, feed, List.getLast?_append, List.dropLast_concat, (hexNum_val h).1]
    by_cases hn : n = 0 <;> simp [hn]
  have := emits_trans h1 h2
  simpa using this

theorem chunked_all {w d r : Bytes} (h : ChunkedBody w d r) : r = [] → Finishes (lineLib read) (.size []) w (d.map (fun x => .body [x])) (.head [] []) := by
  induction h with
  | @last ds rest hne hz =>
    rintro rfl
    have h1 : Emits (lineLib read) (.size []) (ds ++ b! "\r\n") [] (.skip 2 true) := size_line read hz
    have h2 : Emits (lineLib read) (.skip 2 true) [13] [] (.skip 1 true) := emits_one (by simp [lineLib, feed])
    have h3 : Finishes (lineLib read) (.skip 1 true) [10] [] (.head [] []) := finishes_one (by simp [lineLib, feed])
    have := finishes_after h1 (finishes_after h2 h3)
    simpa using this
  | @chunk ds n c w d rest hne hz hp hc _ ih =>
    intro hr
    have h0 : (if n = 0 then LineState.skip 2 true else .chunk n) = .chunk n := if_neg (by omega)
    have h1 : Emits (lineLib read) (.size []) (ds ++ b! "\r\n") [] (.chunk n) := h0 ▸ size_line read hz
    have h2 := chunk_all read c n hc hp
    have h3 : Emits (lineLib read) (.skip 2 false) [13] [] (.skip 1 false) := emits_one (by simp [lineLib, feed])
    have h4 : Emits (lineLib read) (.skip 1 false) [10] [] (.size []) := emits_one (by simp [lineLib, feed])
    have := finishes_after h1 (finishes_after h2 (finishes_after h3 (finishes_after h4 (ih hr))))
    simpa using this

end

/-! ### What a head means -/

def splitColon (l : Bytes) : Bytes × Bytes := (l.takeWhile (· ≠ chr ':'), (l.dropWhile (· ≠ chr ':')).drop 2)

theorem take_stop {p : Byte → Bool} {a r : Bytes} {x : Byte} (ha : ∀ y ∈ a, p y = true) (hx : p x = false) : (a ++ x :: r).takeWhile p = a ∧ (a ++ x :: r).dropWhile p = x :: r := by
  induction a with
  | nil => simp [hx]
  | cons y t ih =>
    have := ih (fun z hz => ha z (by simp [hz]))
    have hy := ha y (by simp)
    simp only [List.cons_append, List.takeWhile_cons, List.dropWhile_cons, hy, if_true, this]
    simp

theorem token_plain : ∀ c : Byte, c ∈ tokenChars → c ≠ chr ':' ∧ c ≠ 10 := forall_byte (by decide +kernel)

theorem split_line {n v : Bytes} (hn : ∀ c ∈ n, c ∈ tokenChars) : splitColon (n ++ b! ": " ++ v) = (n, v) := by
  have h := take_stop (p := fun c => decide (c ≠ chr ':')) (a := n) (r := 32 :: v) (x := chr ':') (fun y hy => by simpa using (token_plain y (hn y hy)).1) (by simp)
  have e : n ++ b! ": " ++ v = n ++ chr ':' :: (32 :: v) := by rw [List.append_assoc]; rfl
  unfold splitColon
  rw [e, h.1, h.2]
  rfl

def isName (x : Bytes) (f : Bytes × Bytes) : Bool := f.1.map ascii_lower = x.map ascii_lower

theorem isName_iff (x : Bytes) (f : Bytes × Bytes) : isName x f = true ↔ SameButCase f.1 x := by rw [Http.sameButCase_iff]; simp [isName]

def frameOf (fs : List (Bytes × Bytes)) : Frame :=
  if fs.any (isName (b! "Transfer-Encoding")) then .chunked
  else match fs.find? (isName (b! "Content-Length")) with
    | some f => .length (decVal f.2)
    | none => .none

/-- A response that tells nothing ends with the stream. -/
def replyFrame (fs : List (Bytes × Bytes)) : Frame := if frameOf fs = .none then .stream else frameOf fs

def keepOf (fs : List (Bytes × Bytes)) : Bool := !fs.any (fun f => isName (b! "Connection") f && f.2.map ascii_lower = b! "close")

theorem any_absent {fs : List (Bytes × Bytes)} {x : Bytes} (h : Absent fs x) : fs.any (isName x) = false := by
  rw [List.any_eq_false]
  intro f hf e
  exact h f hf ((isName_iff x f).mp e)

theorem find_absent {fs : List (Bytes × Bytes)} {x : Bytes} (h : Absent fs x) : fs.find? (isName x) = none := by
  rw [List.find?_eq_none]
  intro f hf e
  exact h f hf ((isName_iff x f).mp e)

theorem only_any {fs : List (Bytes × Bytes)} {x v : Bytes} (h : Only fs x v) : fs.any (isName x) = true := by
  obtain ⟨a, b, n, rfl, h1, _⟩ := h
  rw [List.any_eq_true]
  exact ⟨(n, v), by simp, (isName_iff x _).mpr h1⟩

theorem only_find {fs : List (Bytes × Bytes)} {x v : Bytes} (h : Only fs x v) : ∃ n, fs.find? (isName x) = some (n, v) := by
  obtain ⟨a, b, n, rfl, h1, h2⟩ := h
  refine ⟨n, ?_⟩
  have ha : a.find? (isName x) = none := find_absent (fun f hf => h2 f (by simp [hf]))
  rw [List.find?_append, ha]
  simp [(isName_iff x (n, v)).mpr h1]

theorem keep_eq {fs : List (Bytes × Bytes)} {keep : Bool} (h : Persists fs keep) : keepOf fs = keep := by
  have e : keepOf fs = false ↔ keep = false := by
    rw [h.close]
    simp only [keepOf, Bool.not_eq_false', List.any_eq_true, Bool.and_eq_true, decide_eq_true_eq]
    constructor
    · rintro ⟨f, hf, h1, h2⟩
      exact ⟨f, hf, (isName_iff _ _).mp h1, by rw [Http.sameButCase_iff, h2]; decide⟩
    · rintro ⟨f, hf, h1, h2⟩
      exact ⟨f, hf, (isName_iff _ _).mpr h1, by rw [Http.sameButCase_iff] at h2; rw [h2]; decide⟩
  cases hk : keepOf fs <;> cases keep <;> simp_all

/-- The library reads the payload. -/
theorem framed_all (read : List Bytes → Option HeadInfo) {fs : List (Bytes × Bytes)} {text body : Bytes} (h : Framed fs text body) :
    Finishes (lineLib read) (.ready (frameOf fs)) (10 :: text) (body.map (fun x => .body [x])) (.head [] []) := by
  cases h with
  | @length d body h1 h2 h3 h4 h5 =>
    obtain ⟨n, hn⟩ := only_find h1
    have e : frameOf fs = .length text.length := by
      unfold frameOf
      rw [any_absent h2, hn]
      simp [decNum_val h4]
    rw [e]
    cases ht : text with
    | nil => exact finishes_one (by simp [lineLib, feed])
    | cons x t =>
      have h6 : Emits (lineLib read) (.ready (.length (t.length + 1))) [10] [] (.raw (t.length + 1)) := emits_one (by simp [lineLib, feed])
      exact finishes_after h6 (raw_all read (x :: t) (t.length + 1) (by simp) (by omega))
  | chunked h1 h2 h3 h4 =>
    have e : frameOf fs = .chunked := by simp [frameOf, only_any h2]
    rw [e]
    have h6 : Emits (lineLib read) (.ready .chunked) [10] [] (.size []) := emits_one (by simp [lineLib, feed])
    exact finishes_after h6 (chunked_all read h3 rfl)

theorem none_all (read : List Bytes → Option HeadInfo) : Finishes (lineLib read) (.ready .none) [10] [] (.head [] []) := finishes_one (by simp [lineLib, feed])

theorem bodies (body : Bytes) : (body.map (fun x => [x])).flatten = body ∧ (body.map (fun x => [x])).map Data.body = body.map (fun x => .body [x]) := by
  refine ⟨?_, by simp⟩
  induction body with
  | nil => rfl
  | cons x t ih => simp [ih]

theorem singles (fs : List (Bytes × Bytes)) : flat (fs.map (fun f => ([f.1], [f.2]))) = fs := by
  simp only [flat, List.map_map]
  conv => rhs; rw [← List.map_id fs]
  apply List.map_congr_left
  intro f _
  simp

theorem single_ne (fs : List (Bytes × Bytes)) : ∀ p ∈ fs.map (fun f => ([f.1], [f.2])), p.1 ≠ [] ∧ p.2 ≠ [] := by
  intro p hp
  obtain ⟨f, _, rfl⟩ := List.mem_map.mp hp
  simp

theorem lines_eq (start : Bytes) (fs : List (Bytes × Bytes)) : start ++ b! "\r\n" ++ fieldLines fs = (start :: fs.map (fun f => f.1 ++ b! ": " ++ f.2)).flatMap (fun x => x ++ b! "\r\n") ++ b! "\r\n" := by
  simp [fieldLines, List.flatMap_map]

theorem field_line {fs : List (Bytes × Bytes)} (h : GoodFields fs) : ∀ x ∈ fs.map (fun f => f.1 ++ b! ": " ++ f.2), (10 : Byte) ∉ x ∧ x ≠ [] := by
  intro x hx
  obtain ⟨f, hf, rfl⟩ := List.mem_map.mp hx
  have := h f hf
  refine ⟨?_, by simp⟩
  intro hm
  simp only [List.mem_append] at hm
  rcases hm with (hm | hm) | hm
  · exact (token_plain _ (this.2.1 _ hm)).2 rfl
  · revert hm; decide
  · exact (fieldText_plain this.2.2 _ hm).2 rfl

theorem split_all {fs : List (Bytes × Bytes)} (h : GoodFields fs) : (fs.map (fun f => f.1 ++ b! ": " ++ f.2)).map splitColon = fs := by
  rw [List.map_map]
  conv => rhs; rw [← List.map_id fs]
  apply List.map_congr_left
  intro f hf
  exact split_line (h f hf).2.1

/-- The end of a head. -/
theorem head_end (read : List Bytes → Option HeadInfo) (ls : List Bytes) (i : HeadInfo) (h : read ls = some i) :
    Emits (lineLib read) (.head ls []) [13] [] (.head ls [13]) ∧ (lineLib read).micro (.head ls [13]) 10 = (.ready i.frame, i.data, .headers i.method i.status i.keep) := by
  refine ⟨emits_one (by simp [lineLib, feed]), ?_⟩
  simp [lineLib, feed, h]

/-! ### Requests -/

def readRequest : List Bytes → Option HeadInfo
  | [] => none
  | l :: t =>
    let fs := t.map splitColon
    some {
      data := .url ((l.dropWhile (· ≠ 32)).drop 1 |>.takeWhile (· ≠ 32)) :: fs.flatMap (fun f => [.field f.1, .value f.2])
      method := l.takeWhile (· ≠ 32)
      status := 0
      keep := keepOf fs
      frame := frameOf fs }

theorem readRequest_data : ∀ ls i, readRequest ls = some i → ∀ x, .body x ∉ i.data := by
  intro ls i h x
  cases ls with
  | nil => cases h
  | cons l t =>
    simp only [readRequest, Option.some.injEq] at h
    subst h
    simp

theorem method_plain : ∀ m ∈ plainMethods, ∀ c ∈ m, c ≠ 32 ∧ c ≠ 10 := by decide
theorem query_plain : ∀ c : Byte, c ∈ fragmentChars → c ≠ 32 ∧ c ≠ 10 := forall_byte (by decide +kernel)

theorem origin_plain {o : OriginForm} (hv : o.Valid) (hf : o.fragment = none) : ∀ c ∈ o.text, c ≠ 32 ∧ c ≠ 10 := by
  intro c hc
  apply query_plain
  simp only [OriginForm.text, hf, optText, List.append_nil] at hc
  rcases List.mem_append.mp hc with hc | hc
  · exact (Uri.chars_sub c).2.2.1 (hv.path_chars c hc)
  · cases hq : o.query with
    | none => rw [hq] at hc; simp at hc
    | some q =>
      rw [hq] at hc
      simp only [List.mem_append] at hc
      rcases hc with hc | hc
      · simp only [List.mem_singleton] at hc; subst hc; decide
      · exact (Uri.chars_sub c).2.2.2 (hv.query_chars q hq c hc)

/-- The contract can be met. -/
theorem lineLib_requests (limit : Nat) : ReadsRequests limit (lineLib readRequest) := by
  refine ⟨fun st => st = LineState.head [] [], rfl, ?_, ?_⟩
  · rintro st rfl; simp [lineLib]
  rintro st r rfl hv
  obtain ⟨o, ho, hf, ht⟩ := hv.target
  have hm := method_plain _ hv.method
  have htp : ∀ c ∈ r.target, c ≠ 32 ∧ c ≠ 10 := by rw [ht]; exact origin_plain ho hf
  refine ⟨[r.target], r.fields.map (fun f => ([f.1], [f.2])), r.body.map (fun x => [x]), LineState.head [] [], by simp, singles _, single_ne _, (bodies _).1, ?_, by simp [lineLib], fun _ => rfl⟩
  have hstart : (10 : Byte) ∉ r.method ++ b! " " ++ r.target ++ b! " HTTP/1.1" := by
    intro h
    simp only [List.mem_append] at h
    rcases h with ((h | h) | h) | h
    · exact (hm _ h).2 rfl
    · revert h; decide
    · exact (htp _ h).2 rfl
    · revert h; decide
  let ls := (r.method ++ b! " " ++ r.target ++ b! " HTTP/1.1") :: r.fields.map (fun f => f.1 ++ b! ": " ++ f.2)
  have hls : ∀ x ∈ ls, (10 : Byte) ∉ x ∧ x ≠ [] := by
    intro x hx
    rcases List.mem_cons.mp hx with rfl | hx
    · exact ⟨hstart, by simp⟩
    · exact field_line hv.fields x hx
  have h1 := head_lines readRequest ls [] hls
  let i : HeadInfo := { data := .url r.target :: r.fields.flatMap (fun f => [.field f.1, .value f.2]), method := r.method, status := 0, keep := r.keep, frame := frameOf r.fields }
  have hread : readRequest ls = some i := by
    have e1 := take_stop (p := fun c : Byte => decide (c ≠ 32)) (a := r.method) (x := 32) (r := r.target ++ b! " HTTP/1.1") (fun y hy => by simpa using (hm y hy).1) (by simp)
    have e2 := take_stop (p := fun c : Byte => decide (c ≠ 32)) (a := r.target) (x := 32) (r := b! "HTTP/1.1") (fun y hy => by simpa using (htp y hy).1) (by simp)
    have e3 : r.method ++ b! " " ++ r.target ++ b! " HTTP/1.1" = r.method ++ 32 :: (r.target ++ b! " HTTP/1.1") := by simp
    have e4 : r.target ++ b! " HTTP/1.1" = r.target ++ 32 :: b! "HTTP/1.1" := rfl
    simp only [readRequest, ls, split_all hv.fields, e3, e1.1, e1.2, List.drop_one, List.tail_cons]
    rw [e4, e2.1, keep_eq hv.persists]
  obtain ⟨h2, h3⟩ := head_end readRequest ls i hread
  have h4 := emits_trans h1 h2
  have hfin : Finishes (lineLib readRequest) (.ready (frameOf r.fields)) (10 :: r.text) (r.body.map (fun x => .body [x])) (.head [] []) := by
    rcases hv.framed with ⟨a1, a2, a3, a4⟩ | hf
    · have : frameOf r.fields = .none := by simp [frameOf, any_absent a2, find_absent a1]
      rw [this, a3, a4]
      exact none_all _
    · exact framed_all _ hf
  obtain ⟨w3, e, d3, d4, s3, g1, g2, g3, g4⟩ := hfin
  refine ⟨ls.flatMap (fun x => x ++ b! "\r\n") ++ [13], 10, r.text, _, _, _, _, 0, w3, e, d3, d4, s3, ?_, g1, h4, h3, ?_, g2, g3, ?_⟩
  · have e1 : r.head = ls.flatMap (fun x => x ++ b! "\r\n") ++ b! "\r\n" := by
      rw [← lines_eq]
      simp [WireRequest.head]
    rw [e1]
    simp
  · simp [headCalls, i, List.flatMap_map]
  · rw [(bodies _).2, g4]

/-! ### Responses -/

def readReply : List Bytes → Option HeadInfo
  | [] => none
  | l :: t =>
    let fs := t.map splitColon
    let status := decVal ((l.drop 9).take 3)
    some {
      data := .status status (l.drop 13) :: fs.flatMap (fun f => [.field f.1, .value f.2])
      method := []
      status := status
      keep := keepOf fs
      frame := if status ≤ 199 ∨ status = 204 ∨ status = 304 then .none else replyFrame fs }

theorem readReply_data : ∀ ls i, readReply ls = some i → ∀ x, .body x ∉ i.data := by
  intro ls i h x
  cases ls with
  | nil => cases h
  | cons l t =>
    simp only [readReply, Option.some.injEq] at h
    subst h
    simp

theorem decNum_plain {d : Bytes} {n : Nat} (h : DecNum d n) : (10 : Byte) ∉ d := (Http.decNum_oneLine h).2

theorem replyFrame_framed {fs : List (Bytes × Bytes)} {text body : Bytes} (h : Framed fs text body) : replyFrame fs = frameOf fs := by
  unfold replyFrame
  cases h with
  | @length d body h1 h2 h3 h4 h5 =>
    obtain ⟨n, hn⟩ := only_find h1
    have e : frameOf fs = .length (decVal d) := by unfold frameOf; rw [any_absent h2, hn]; simp
    rw [e]; simp
  | chunked h1 h2 h3 h4 =>
    have e : frameOf fs = .chunked := by simp [frameOf, only_any h2]
    rw [e]; simp

/-- The library reads the head of a response. -/
theorem reply_head (r : WireReply) (hreason : ∀ c ∈ r.reason, c = 9 ∨ 32 ≤ c.toNat ∧ c ≠ 127) (hdigits : DecNum r.digits r.status ∧ r.digits.length = 3) (hfields : GoodFields r.fields) (hpersists : Persists r.fields r.keep) :
    ∃ w1 d1 d2 s1, r.head = w1 ++ [10] ∧ Emits (lineLib readReply) (.head [] []) w1 d1 s1 ∧
      (lineLib readReply).micro s1 10 = (.ready (if r.status ≤ 199 ∨ r.status = 204 ∨ r.status = 304 then .none else replyFrame r.fields), d2, .headers [] r.status r.keep) ∧
      replyCalls r.status [r.reason] (r.fields.map (fun f => ([f.1], [f.2]))) = d1 ++ d2 := by
  have hrp : (10 : Byte) ∉ r.reason := by
    intro h
    rcases hreason _ h with h | ⟨h, _⟩
    · exact absurd h (by decide)
    · exact absurd h (by decide)
  have hstart : (10 : Byte) ∉ b! "HTTP/1.1 " ++ r.digits ++ b! " " ++ r.reason := by
    intro h
    simp only [List.mem_append] at h
    rcases h with ((h | h) | h) | h
    · revert h; decide
    · exact decNum_plain hdigits.1 h
    · revert h; decide
    · exact hrp h
  let ls := (b! "HTTP/1.1 " ++ r.digits ++ b! " " ++ r.reason) :: r.fields.map (fun f => f.1 ++ b! ": " ++ f.2)
  have hls : ∀ x ∈ ls, (10 : Byte) ∉ x ∧ x ≠ [] := by
    intro x hx
    rcases List.mem_cons.mp hx with rfl | hx
    · exact ⟨hstart, by simp⟩
    · exact field_line hfields x hx
  have h1 := head_lines readReply ls [] hls
  let i : HeadInfo := { data := .status r.status r.reason :: r.fields.flatMap (fun f => [.field f.1, .value f.2]), method := [], status := r.status, keep := r.keep, frame := if r.status ≤ 199 ∨ r.status = 204 ∨ r.status = 304 then .none else replyFrame r.fields }
  have hread : readReply ls = some i := by
    have e1 : ((b! "HTTP/1.1 " ++ r.digits ++ b! " " ++ r.reason).drop 9).take 3 = r.digits := by
      have : (b! "HTTP/1.1 " ++ r.digits ++ b! " " ++ r.reason).drop 9 = r.digits ++ (b! " " ++ r.reason) := by
        simp
      rw [this, ← hdigits.2, List.take_left']
      rfl
    have e2 : (b! "HTTP/1.1 " ++ r.digits ++ b! " " ++ r.reason).drop 13 = r.reason := by
      have : (b! "HTTP/1.1 " ++ r.digits ++ b! " ").length = 13 := by simp [hdigits.2]
      rw [← this, List.drop_left]
    simp only [readReply, ls, split_all hfields, e1, e2, decNum_val hdigits.1, keep_eq hpersists, i]
  obtain ⟨h2, h3⟩ := head_end readReply ls i hread
  refine ⟨ls.flatMap (fun x => x ++ b! "\r\n") ++ [13], _, _, _, ?_, emits_trans h1 h2, h3, ?_⟩
  · have e1 : r.head = ls.flatMap (fun x => x ++ b! "\r\n") ++ b! "\r\n" := by
      rw [← lines_eq]
      simp [WireReply.head]
    rw [e1]
    simp
  · simp [replyCalls, i, List.flatMap_map]

/-- It reads valid responses. -/
theorem lineLib_valid {limit : Nat} {empty : Bool} {r : WireReply} (hv : r.Valid limit empty) :
    (Client.Response.mk (r.head ++ r.text) r.status [r.reason] (r.fields.map (fun f => ([f.1], [f.2]))) (r.body.map (fun x => [x])) r.keep).Reads (lineLib readReply) empty false (.head [] []) (.head [] []) := by
  obtain ⟨w1, d1, d2, s1, e1, h4, h3, e2⟩ := reply_head r hv.reason hv.digits hv.fields hv.persists
  let frame : Frame := if r.status ≤ 199 ∨ r.status = 204 ∨ r.status = 304 then .none else replyFrame r.fields
  have hfin : Finishes (lineLib readReply) (if empty then (lineLib readReply).skip (LineState.ready frame) else LineState.ready frame) (10 :: r.text) (r.body.map (fun x => .body [x])) (.head [] []) := by
    rcases hv.framed with ⟨a0, a1, a2, a3, a4⟩ | ⟨a0, a1, a2, a3, a4, a5⟩ | ⟨a0, a1, a2⟩
    · have : frame = .none := if_pos a0
      rw [this, a3, a4]
      have e : (if empty then (lineLib readReply).skip (LineState.ready .none) else LineState.ready .none) = LineState.ready .none := by cases empty <;> rfl
      rw [e]
      exact none_all _
    · rw [a1, a4, a5]
      exact none_all _
    · have : frame = frameOf r.fields := (if_neg a0).trans (replyFrame_framed a2)
      rw [a1, this]
      exact framed_all _ a2
  obtain ⟨w3, e, d3, d4, s3, g1, g2, g3, g4⟩ := hfin
  refine ⟨w1, 10, r.text, d1, d2, s1, LineState.ready frame, [], r.status, d3, s3, ?_, h4, h3, e2, ?_⟩
  · show r.head ++ r.text = _
    rw [e1]
    simp
  · simp only [Bool.false_eq_true, if_false]
    exact ⟨w3, e, d4, g1, g2, g3, by rw [(bodies _).2, g4]⟩

/-- The contract can be met. -/
theorem lineLib_replies (limit : Nat) : ReadsReplies limit (lineLib readReply) := by
  refine ⟨fun st => st = LineState.head [] [], rfl, ?_, ?_⟩
  · rintro st rfl; simp [lineLib]
  rintro st empty r rfl hv
  exact ⟨[r.reason], r.fields.map (fun f => ([f.1], [f.2])), r.body.map (fun x => [x]), LineState.head [] [], by simp, by simp, singles _, single_ne _, (bodies _).1, lineLib_valid hv, by simp [lineLib], fun _ => rfl⟩

theorem rest_all (read : List Bytes → Option HeadInfo) (w : Bytes) : Emits (lineLib read) .rest w (w.map (fun x => .body [x])) .rest := by
  induction w with
  | nil => exact .nil _
  | cons x t ih =>
    have h : Emits (lineLib read) .rest [x] [.body [x]] .rest := emits_one rfl
    exact emits_trans h ih

end Verif.HttpExchange
