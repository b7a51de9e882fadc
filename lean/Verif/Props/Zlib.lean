import Verif.Proofs.Zlib
import Verif.Proofs.ZlibToy
/-!
# C67, C68: compressed data

zlib is not part of the repository.  Theorems are about any `Zlib` for which what zlib.h says is true: `Deflates` and `Inflates`, and `RawDeflates` and `RawInflates` for the raw format, in
`Verif/Spec/Zlib.lean`.  `inp` and `out` are everything that a stream has consumed and written.
-/
namespace Verif.Props
open Verif.Zlib

/-- C67.  Messages that are sent by `ws_send()`, of any length up to the limit of the receiver, and in any order, are received as they were sent, with or without context takeover, no matter
which ones are compressed and which ones can't be; no loop goes on forever. -/
theorem C67_messages {zs : Zlib S} {zr : Zlib R} {codec : Codec} (hs : RawDeflates zs codec) (hr : RawInflates zr codec) {grow : Bytes → Nat → Nat} (hg : ∀ b r, r ≤ grow b r) (noCtx : Bool)
    (limit : Nat) (s : S) (r : R) (h : hs.inp s = [] ∧ hs.out s = [] ∧ hr.inp r = [] ∧ hr.out r = []) (ms : List Bytes) (hl : ∀ m ∈ ms, m.length ≤ limit) :
    ∃ n, ∀ k, n ≤ k → (exchange zs zr grow noCtx limit k s r ms).map (·.map (·.1)) = some ms := by
  refine exchange_spec hs hr hg noCtx limit ms s r ⟨?_, ?_, Or.inl h.2.1, ⟨[], codec.nil.1, ?_⟩, ?_⟩ hl
  · rw [h.2.1]; exact codec.nil.1
  · rw [h.2.1, h.1]; exact codec.nil.2
  · rw [h.2.1, h.2.2.1]; rfl
  · rw [h.2.2.1, h.2.2.2]; exact codec.nil.2.symm

def zlibMessages : List Bytes := [List.replicate 70 7, b! "short", List.replicate 64 0, [], List.replicate 63 1]

example : (Toy.deflates.inp Toy.dInit = [] ∧ Toy.deflates.out Toy.dInit = [] ∧ Toy.inflates.inp Toy.iInit = [] ∧ Toy.inflates.out Toy.iInit = []) ∧ (∀ m ∈ zlibMessages, m.length ≤ 70) ∧
    exchange Toy.deflator Toy.inflator (fun _ r => r) false 70 100 Toy.dInit Toy.iInit zlibMessages = some (zlibMessages.zip [true, false, true, false, false]) :=
  ⟨⟨rfl, rfl, rfl, rfl⟩, by decide +kernel, by decide +kernel⟩

/-- C67.  A message that expands to more than the limit is not received. -/
theorem C67_limit (zr : Zlib R) (grow : Bytes → Nat → Nat) (limit n : Nat) (w w' : Wrap R) (data r : Bytes) (e : Err) (hd : data ≠ [])
    (h : inflateStream zr grow limit n w data = .done w' r e) : w'.buf.length ≤ limit := by
  unfold inflateStream at h
  rw [if_neg (by simpa using hd)] at h
  clear hd
  induction n generalizing w data with
  | zero => cases h
  | succ n ih =>
    simp only [loop] at h
    split at h
    · cases h
    · split at h
      · cases h
      · split at h
        · cases h
        · rename_i hlim
          split at h
          · exact ih _ _ h
          · cases h
            simpa using hlim

example : (match inflateStream Toy.inflator (fun _ r => r) 3 10 { strm := Toy.iInit, buf := [] } [1, 5, 1, 6, 1, 7, 1, 8] with | .threw _ => true | _ => false) = true ∧
    (match inflateStream Toy.inflator (fun _ r => r) 4 10 { strm := Toy.iInit, buf := [] } [1, 5, 1, 6, 1, 7, 1, 8] with | .done w _ _ => w.buf | _ => []) = [5, 6, 7, 8] :=
  ⟨by decide +kernel, by decide +kernel⟩

/-- C68.  `deflate()` ends: it throws an exception, or it consumes all its input and gives the derived class exactly what zlib has written. -/
theorem C68_deflate {z : Zlib S} (hz : Stream z) (grow : Bytes → Nat → Nat) (w : Wrap S) (data : Bytes) :
    ∃ n o, (∀ k, n ≤ k → deflate z grow k w data = o) ∧
      ((∃ w', o = .threw w') ∨ ∃ w' e new, o = .done w' [] e ∧ hz.inp w'.strm = hz.inp w.strm ++ data ∧ hz.out w'.strm = hz.out w.strm ++ new ∧ w'.buf = w.buf ++ new) := by
  obtain ⟨n, o, h, hE⟩ := loop_ends hz (trunc_isRound z hz grow (by decide : 0 < 128) .no) (l := { good := [.ok, .bufError], atEnd := true }) (by decide) w data
  refine ⟨n, o, h, ?_⟩
  rcases hE with ⟨w', rfl, _⟩ | ⟨w', r, e, rfl, ⟨u, nw, ha, hb, hc, hd⟩, hge, hok, hbf, _⟩
  · exact Or.inl ⟨_, rfl⟩
  · have hr : r = [] := by
      rcases List.mem_cons.mp hge with rfl | hge
      · exact (hok rfl).2
      · exact hbf (by simpa using hge)
    subst hr
    rw [List.append_nil] at ha
    subst ha
    exact Or.inr ⟨w', e, nw, rfl, hb, hc, hd⟩

/-- C68.  `sync_flush()` and `full_flush()` end: they throw an exception, or they return true after everything that has been consumed can be restored from what has been written. -/
theorem C68_flush {z : Zlib S} {expand : Bytes → Bytes} (hz : Deflates z expand) (grow : Bytes → Nat → Nat) (w : Wrap S) (f : Nat → Wrap S → Out S) (hf : f = syncFlush z grow ∨ f = fullFlush z grow) :
    ∃ n o, (∀ k, n ≤ k → f k w = o) ∧
      ((∃ w', o = .threw w') ∨ ∃ w' r new, o = .done w' r .bufError ∧ hz.inp w'.strm = hz.inp w.strm ∧ hz.out w'.strm = hz.out w.strm ++ new ∧ w'.buf = w.buf ++ new ∧
        expand (hz.out w'.strm) = hz.inp w'.strm) := by
  have key : ∀ fl, fl = Flush.sync ∨ fl = .full → ∃ n o, (∀ k, n ≤ k → loop (truncRound z grow 16 fl) { good := [.ok, .bufError], atEnd := false } k w [] = o) ∧
      ((∃ w', o = .threw w') ∨ ∃ w' r new, o = .done w' r .bufError ∧ hz.inp w'.strm = hz.inp w.strm ∧ hz.out w'.strm = hz.out w.strm ++ new ∧ w'.buf = w.buf ++ new ∧
        expand (hz.out w'.strm) = hz.inp w'.strm) := by
    intro fl hfl
    obtain ⟨n, o, h, hE⟩ := loop_ends hz.toStream (trunc_isRound z hz.toStream grow (by decide : 0 < 16) fl) (l := { good := [.ok, .bufError], atEnd := false }) (by decide) w []
    refine ⟨n, o, h, ?_⟩
    rcases hE with ⟨w', rfl, _⟩ | ⟨w', r, e, rfl, ⟨u, nw, ha, hb, hc, hd⟩, hge, hok, hbf, s1, k, i1, c, p, hk0, hcall, hi1⟩
    · exact Or.inl ⟨_, rfl⟩
    · have hbe : e = .bufError := by
        rcases List.mem_cons.mp hge with rfl | hge
        · exact absurd (hok rfl).1 (by simp)
        · simpa using hge
      subst hbe
      have := hi1 rfl
      subst this
      have hu : u = [] := (List.append_eq_nil_iff.mp ha.symm).1
      subst hu
      rw [List.append_nil] at hb
      exact Or.inr ⟨w', r, nw, rfl, hb, hc, hd, hz.flushed _ _ _ _ _ _ hcall hk0 hfl⟩
  rcases hf with rfl | rfl
  · exact key .sync (Or.inl rfl)
  · exact key .full (Or.inr rfl)

/-- C68.  `finish()` ends; if it returns true then everything that has been consumed can be restored from what has been written. -/
theorem C68_finish {z : Zlib S} {expand : Bytes → Bytes} (hz : Deflates z expand) (grow : Bytes → Nat → Nat) (w : Wrap S) :
    ∃ n o, (∀ k, n ≤ k → finish z grow k w = o) ∧
      ((∃ w', o = .threw w') ∨ ∃ w' r e new, o = .done w' r e ∧ hz.inp w'.strm = hz.inp w.strm ∧ hz.out w'.strm = hz.out w.strm ++ new ∧ w'.buf = w.buf ++ new ∧
        (e = .streamEnd → expand (hz.out w'.strm) = hz.inp w'.strm)) := by
  obtain ⟨n, o, h, hE⟩ := loop_ends hz.toStream (trunc_isRound z hz.toStream grow (by decide : 0 < 16) .finish) (l := { good := [.ok, .bufError, .streamEnd], atEnd := false }) (by decide) w []
  refine ⟨n, o, h, ?_⟩
  rcases hE with ⟨w', rfl, _⟩ | ⟨w', r, e, rfl, ⟨u, nw, ha, hb, hc, hd⟩, hge, hok, hbf, s1, k, i1, c, p, hk0, hcall, hi1⟩
  · exact Or.inl ⟨_, rfl⟩
  · have hu : u = [] := (List.append_eq_nil_iff.mp ha.symm).1
    subst hu
    rw [List.append_nil] at hb
    exact Or.inr ⟨w', r, e, nw, rfl, hb, hc, hd, fun he => by subst he; exact hz.finished _ _ _ _ _ _ hcall hk0⟩

/-- C68.  `inflate()` ends: it throws an exception, or it consumes all its input unless the stream has ended, and gives the derived class exactly what zlib has written. -/
theorem C68_inflate {z : Zlib S} (hz : Stream z) (grow : Bytes → Nat → Nat) (w : Wrap S) (data : Bytes) :
    ∃ n o, (∀ k, n ≤ k → inflate z grow k w data = o) ∧
      ((∃ w', o = .threw w') ∨ ∃ w' r e used new, o = .done w' r e ∧ data = used ++ r ∧ (e ≠ .streamEnd → r = []) ∧ hz.inp w'.strm = hz.inp w.strm ++ used ∧ hz.out w'.strm = hz.out w.strm ++ new ∧
        w'.buf = w.buf ++ new) := by
  obtain ⟨n, o, h, hE⟩ := loop_ends hz (trunc_isRound z hz grow (by decide : 0 < 128) .sync) (l := { good := [.ok, .bufError, .streamEnd], atEnd := true }) (by decide) w data
  refine ⟨n, o, h, ?_⟩
  rcases hE with ⟨w', rfl, _⟩ | ⟨w', r, e, rfl, ⟨u, nw, ha, hb, hc, hd⟩, hge, hok, hbf, _⟩
  · exact Or.inl ⟨_, rfl⟩
  · refine Or.inr ⟨w', r, e, u, nw, rfl, ha, fun hne => ?_, hb, hc, hd⟩
    rcases List.mem_cons.mp hge with rfl | hge
    · exact (hok rfl).2
    · rcases List.mem_cons.mp hge with rfl | hge
      · exact hbf rfl
      · exact absurd (by simpa using hge) hne

/-- C68.  `finish()` of a decompressor ends: it throws an exception, or everything that can be made of what has been consumed has been given to the derived class. -/
theorem C68_inflate_finish {z : Zlib S} {expand : Bytes → Bytes} (hz : Inflates z expand) (grow : Bytes → Nat → Nat) (w : Wrap S) :
    ∃ n o, (∀ k, n ≤ k → inflateFinish z grow k w = o) ∧
      ((∃ w', o = .threw w') ∨ ∃ w' r e new, o = .done w' r e ∧ hz.inp w'.strm = hz.inp w.strm ∧ hz.out w'.strm = hz.out w.strm ++ new ∧ w'.buf = w.buf ++ new ∧
        hz.out w'.strm = expand (hz.inp w'.strm)) := by
  obtain ⟨n, o, h, hE⟩ := loop_ends hz.toStream (trunc_isRound z hz.toStream grow (by decide : 0 < 16) .sync) (l := { good := [.ok, .bufError, .streamEnd], atEnd := false }) (by decide) w []
  refine ⟨n, o, h, ?_⟩
  rcases hE with ⟨w', rfl, _⟩ | ⟨w', r, e, rfl, ⟨u, nw, ha, hb, hc, hd⟩, hge, hok, hbf, s1, k, i1, c, p, hk0, hcall, hi1⟩
  · exact Or.inl ⟨_, rfl⟩
  · have hu : u = [] := (List.append_eq_nil_iff.mp ha.symm).1
    subst hu
    rw [List.append_nil] at hb
    refine Or.inr ⟨w', r, e, nw, rfl, hb, hc, hd, hz.complete _ _ _ _ _ _ _ hcall hk0 ?_⟩
    rcases List.mem_cons.mp hge with rfl | hge
    · exact absurd (hok rfl).1 (by simp)
    · rcases List.mem_cons.mp hge with rfl | hge
      · exact Or.inl rfl
      · exact Or.inr (by simpa using hge)

theorem zlib_fixed {f : Nat → Out S} {n k : Nat} {o a : Out S} (h : ∀ k, n ≤ k → f k = o) (hm : ∀ i j, i ≤ j → f i ≠ .stuck → f j = f i) (hk : f k = a) (ha : a ≠ .stuck) : o = a := by
  rw [← hk, ← h (max n k) (by omega)]
  exact hm k (max n k) (by omega) (by rw [hk]; exact ha)

/-- C68.  Pieces of data that have been compressed, where the stream has been finished successfully, can be restored from all output. -/
theorem C68_compress {z : Zlib S} {expand : Bytes → Bytes} (hz : Deflates z expand) (grow : Bytes → Nat → Nat) (n : Nat) (w w' : Wrap S) (ps : List Bytes)
    (h : compressAll z grow n w ps = some (w', true)) (hw : hz.out w.strm = w.buf) : expand w'.buf = hz.inp w.strm ++ ps.flatten := by
  induction ps generalizing w with
  | nil =>
    obtain ⟨m, o, hm, ho⟩ := C68_finish hz grow w
    cases hf : finish z grow n w with
    | threw _ => simp only [compressAll, hf] at h; cases h
    | stuck => simp only [compressAll, hf] at h; cases h
    | done w2 r e =>
      have := zlib_fixed hm (fun i j hij hne => loop_mono hij hne) hf (by simp)
      subst this
      simp only [compressAll, hf, Option.some.injEq, Prod.mk.injEq, decide_eq_true_eq] at h
      obtain ⟨rfl, rfl⟩ := h
      rcases ho with ⟨_, h⟩ | ⟨w3, r3, e3, nw, h3, hi, hout, hb, hfin⟩
      · cases h
      · cases h3
        rw [hb, ← hw, ← hout, hfin rfl, hi]; simp
  | cons p ps ih =>
    simp only [compressAll] at h
    split at h
    · rename_i hp
      have : p = [] := List.eq_nil_of_length_eq_zero hp
      subst this
      exact ih w h hw
    · obtain ⟨m, o, hm, ho⟩ := C68_deflate hz.toStream grow w p
      split at h
      · rename_i w2 e hf
        have := zlib_fixed hm (fun i j hij hne => loop_mono hij hne) hf (by simp)
        subst this
        rcases ho with ⟨_, h'⟩ | ⟨w3, e3, nw, h3, hi, hout, hb⟩
        · cases h'
        · cases h3
          rw [ih w2 h (by rw [hout, hb, hw]), hi]; simp
      · cases h

/-- C68.  Pieces of data that have been decompressed give exactly what they expand to. -/
theorem C68_decompress {z : Zlib S} {expand : Bytes → Bytes} (hz : Inflates z expand) (grow : Bytes → Nat → Nat) (n : Nat) (w w' : Wrap S) (ps : List Bytes) (b : Bool)
    (h : decompressAll z grow n w ps = some (w', b)) (hw : hz.out w.strm = w.buf) : w'.buf = expand (hz.inp w.strm ++ ps.flatten) := by
  induction ps generalizing w with
  | nil =>
    obtain ⟨m, o, hm, ho⟩ := C68_inflate_finish hz grow w
    cases hf : inflateFinish z grow n w with
    | threw _ => simp only [decompressAll, hf] at h; cases h
    | stuck => simp only [decompressAll, hf] at h; cases h
    | done w2 r e =>
      have := zlib_fixed hm (fun i j hij hne => loop_mono hij hne) hf (by simp)
      subst this
      simp only [decompressAll, hf, Option.some.injEq, Prod.mk.injEq] at h
      obtain ⟨rfl, rfl⟩ := h
      rcases ho with ⟨_, h⟩ | ⟨w3, r3, e3, nw, h3, hi, hout, hb, hfin⟩
      · cases h
      · cases h3
        rw [hb, ← hw, ← hout, hfin, hi]; simp
  | cons p ps ih =>
    simp only [decompressAll] at h
    split at h
    · rename_i hp
      have : p = [] := List.eq_nil_of_length_eq_zero hp
      subst this
      exact ih w h hw
    · obtain ⟨m, o, hm, ho⟩ := C68_inflate hz.toStream grow w p
      split at h
      · rename_i w2 e hf
        have := zlib_fixed hm (fun i j hij hne => loop_mono hij hne) hf (by simp)
        subst this
        rcases ho with ⟨_, h'⟩ | ⟨w3, r3, e3, u, nw, h3, hu, _, hi, hout, hb⟩
        · cases h'
        · cases h3
          rw [List.append_nil] at hu
          subst hu
          rw [ih w2 h (by rw [hout, hb, hw]), hi]; simp
      · cases h

/-- C68.  Data that have been compressed and then decompressed, both in any pieces, are the same. -/
theorem C68_roundtrip {zs : Zlib S} {zr : Zlib R} {expand : Bytes → Bytes} (hs : Deflates zs expand) (hr : Inflates zr expand) (g g' : Bytes → Nat → Nat) (n n' : Nat) (s : S) (r : R)
    (h0 : hs.inp s = [] ∧ hs.out s = [] ∧ hr.inp r = [] ∧ hr.out r = []) (ps qs : List Bytes) (w : Wrap S) (w' : Wrap R) (b : Bool) (h1 : compressAll zs g n { strm := s, buf := [] } ps = some (w, true))
    (hq : qs.flatten = w.buf) (h2 : decompressAll zr g' n' { strm := r, buf := [] } qs = some (w', b)) : w'.buf = ps.flatten := by
  rw [C68_decompress hr g' n' _ _ _ _ h2 h0.2.2.2, h0.2.2.1, List.nil_append, hq, C68_compress hs g n _ _ _ h1 h0.2.1, h0.1, List.nil_append]

def zlibPieces : List Bytes := [List.replicate 100 3, [], b! "abc"]
def zlibPacked : Bytes := match compressAll Toy.deflator (fun _ r => r) 50 { strm := Toy.dInit, buf := [] } zlibPieces with | some (w, true) => w.buf | _ => []
def zlibUnpacked : Option (Bytes × Bool) :=
  (decompressAll Toy.inflator (fun _ r => r + 1) 50 { strm := Toy.iInit, buf := [] } [zlibPacked.take 77, zlibPacked.drop 77]).map fun x => (x.1.buf, x.2)

example : zlibPacked.length = 210 ∧ zlibUnpacked = some (List.replicate 100 3 ++ b! "abc", false) ∧ [zlibPacked.take 77, zlibPacked.drop 77].flatten = zlibPacked :=
  ⟨by decide +kernel, by decide +kernel, by simp⟩

/-- A derived class that gives too small a buffer makes an exception be thrown. -/
example : (match deflate Toy.deflator (fun _ r => r - 1) 5 { strm := Toy.dInit, buf := [] } [1] with | .threw _ => true | _ => false) = true := by decide +kernel

/-- Something has been written before and after a flush. -/
example : (match syncFlush Toy.deflator (fun _ r => r) 9 { strm := (Toy.deflator.call Toy.dInit .no (List.replicate 9 1) 5).1, buf := [] } with | .done w _ e => (w.buf.length, e) | _ => (0, .other)) =
    (17, .bufError) := by decide +kernel

end Verif.Props
