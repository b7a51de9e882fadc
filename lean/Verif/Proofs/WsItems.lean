import Verif.Proofs.WsPeers
import Verif.Proofs.WsMixed
/-!
# Frames that threads have sent, as `Verif/Spec/WsMixed.lean` describes frames
-/
namespace Verif.WsPeers
open Verif.Ws Verif.Zlib Verif.Spec Verif.Spec.WsPeers Verif.Props

/-- `x` is the frame `s`, which the other end can read. -/
structure Item.Is (c : Sender S) (max : Nat) (unpack : R → Bytes → Option (R × Bytes)) (r : R) (x : Item) (r' : R) (s : Sent) : Prop where
  bytes : onWire [s] = x.bytes c.server
  fits : s.frame.Fits ∧ s.payload.length = s.frame.len ∧ (s.frame.opcode = 8 → s.payload.length ≠ 1)
  read : if s.frame.rsv1 then s.frame.fin = true ∧ s.payload.length ≤ max ∧ unpack r s.payload = some (r', s.text) else s.text = s.payload ∧ r' = r
  legal : s.frame.Legal (!c.server) c.pmce false
  after : s.frame.after false = false
  room : s.text.length ≤ max
  told : (∃ op data, x.what = .message op data ∧ assemble1 .idle s.meant = (.idle, [x.what])) ∨ (∃ st reason, x.what = .close st reason ∧ assemble1 .idle s.meant = (.closed, [x.what]))

theorem item_is (c : Sender S) (env : Env R) (zr : Zlib R) (grow : Bytes → Nat → Nat) (max k : Nat) (hmax : 125 ≤ max ∧ max < 2 ^ 64) (r r' : R) (x : Item)
    (hx : x.At c.pmce zr grow max k r r') (hlim : compressed (x.bytes c.server) = true → (x.bytes c.server).length ≤ max + 2) :
    ∃ s, x.Is c max (unpackMessage (withInflator env zr grow max k).inflate_stream (withInflator env zr grow max k).inflate_finish) r r' s := by
  have hfr : ∀ op cc, x.first = cc ||| op → (cc = 0b10000000 ∨ cc = 0b11000000) → (op = 1 ∨ op = 2 ∨ op = 8 ∨ op = 9 ∨ op = 10) → x.payload.length ≤ max → (op ≥ 8 → x.payload.length ≤ 125 ∧ cc = 0b10000000) →
      (cc = 0b11000000 → c.pmce = true) →
      ∃ f : WsFrame, x.bytes c.server = encode (toHeader f) ++ f.transform x.payload ∧ f.Fits ∧ x.payload.length = f.len ∧ f.fin = true ∧ f.rsv1 = decide (cc = 0b11000000) ∧ f.opcode = op ∧
        f.Legal (!c.server) c.pmce false := by
    intro op cc h1 hcc ho hl h8 hp
    have hbits : cc ||| op < 256 ∧ (cc ||| op).testBit 7 = true ∧ (cc ||| op).testBit 6 = decide (cc = 0b11000000) ∧ (cc ||| op).testBit 5 = false ∧ (cc ||| op).testBit 4 = false ∧ (cc ||| op) &&& 15 = op := by
      rcases hcc with rfl | rfl <;> rcases ho with rfl | rfl | rfl | rfl | rfl <;> decide
    obtain ⟨f, ⟨g1, g2⟩, g3, g4, g5, g6, g7, g8, g9⟩ := raw_frame_spec c.server x.random (cc ||| op) x.payload hbits.1
    rw [hbits.2.1] at g3; rw [hbits.2.2.1] at g4; rw [hbits.2.2.2.1] at g5; rw [hbits.2.2.2.2.1] at g6; rw [hbits.2.2.2.2.2] at g7
    refine ⟨f, by unfold Item.bytes; rw [h1]; exact g1, ⟨g8, ?_, by omega⟩, g2.symm, g3, g4, g7, ?_, ?_⟩
    · intro key hk
      rw [g9] at hk
      cases hc : c.server with
      | true => simp [hc] at hk
      | false => simp [hc] at hk; rw [← hk]; exact Nat.mod_lt _ (by decide)
    · rw [g9]
      intro hc hn
      cases hc' : c.server with
      | true => simp [hc'] at hc
      | false => simp [hc'] at hn
    · rw [g3, g4, g5, g6, g7]
      by_cases ho8 : op ≥ 8
      · right; right
        refine ⟨by omega, rfl, by have := (h8 ho8).1; omega, ?_, rfl, rfl⟩
        rw [(h8 ho8).2]; decide
      · left
        refine ⟨by omega, rfl, ?_, rfl, rfl⟩
        intro h; exact hp (by simpa using h)
  have hwire : ∀ f : WsFrame, ∀ t, x.bytes c.server = encode (toHeader f) ++ f.transform x.payload → onWire [⟨f, x.payload, t⟩] = x.bytes c.server := by
    intro f t h
    rw [h]
    simp [onWire, wire, Sent.raw]
  have hafter : ∀ f : WsFrame, f.fin = true → f.after false = false := by
    intro f h
    unfold WsFrame.after
    rw [h]
    split <;> rfl
  rcases hx with ⟨⟨op, h1, h2, h3, h4⟩ | ⟨st, reason, h1, h2, h3, h4⟩, hr⟩ | ⟨hp, hx⟩
  · obtain ⟨f, g1, g2, g3, g4, g5, g6, g7⟩ := hfr op _ h1 (.inl rfl) (by omega) h4 (fun h => ⟨by omega, rfl⟩) (fun h => by simp at h)
    have g5 : f.rsv1 = false := by simpa using g5
    refine ⟨⟨f, x.payload, x.payload⟩, hwire f _ g1, ⟨g2, g3, fun h => ?_⟩, by simp [g5, hr], g7, hafter f g4, h4, .inl ⟨op, x.payload, h2, ?_⟩⟩
    · exfalso; have h : f.opcode = 8 := h; omega
    · rw [h2]
      simp only [Sent.meant, assemble1, g6]
      by_cases h12 : op = 1 ∨ op = 2
      · rw [if_pos h12]; simp [extend, g4]
      · rw [if_neg h12, if_neg (by omega), if_neg (by omega)]
  · have hl := close_length st reason
    rw [← h3] at hl
    obtain ⟨f, g1, g2, g3, g4, g5, g6, g7⟩ := hfr 8 _ h1 (.inl rfl) (by omega) (by omega) (fun h => ⟨by omega, rfl⟩) (fun h => by simp at h)
    have g5 : f.rsv1 = false := by simpa using g5
    refine ⟨⟨f, x.payload, x.payload⟩, hwire f _ g1, ⟨g2, g3, fun _ => (by show x.payload.length ≠ 1; omega)⟩, by simp [g5, hr], g7, hafter f g4, (by show x.payload.length ≤ max; omega), .inr ⟨st, reason.take 123, h2, ?_⟩⟩
    rw [h2]
    simp only [Sent.meant, assemble1, g6]
    rw [if_neg (by omega), if_neg (by omega), if_pos trivial]
    have hne : x.payload.isEmpty = false := by cases hp : x.payload with | nil => simp [hp] at hl | cons => rfl
    have htd : x.payload.take 2 = beBytes 2 st ∧ x.payload.drop 2 = reason.take 123 := by rw [h3]; exact ⟨rfl, rfl⟩
    simp only [hne, htd.1, htd.2, Bool.false_eq_true, if_false]
    rw [beNat_beBytes, Nat.mod_eq_of_lt (by simpa using h4)]
  · obtain ⟨op, data, ho, h1, h2, h3, w1, e1, w2, e2, h4, h5, h6, h7, h8⟩ := hx.op
    have hop : x.first < 256 ∧ x.first.testBit 6 = true := by rw [h1]; rcases ho with rfl | rfl <;> decide
    have hl := raw_frame_first c.server x.random x.first x.payload hop.1
    have hlen : x.payload.length ≤ max := by
      have := hlim (by unfold Item.bytes; rw [hl.1]; exact hop.2)
      have h' := hl.2
      unfold Item.bytes at this
      omega
    obtain ⟨f, g1, g2, g3, g4, g5, g6, g7⟩ := hfr op _ h1 (.inr rfl) (by omega) hlen (fun h => by omega) (fun _ => hp)
    have g5 : f.rsv1 = true := by simpa using g5
    refine ⟨⟨f, x.payload, data⟩, hwire f _ g1, ⟨g2, g3, fun h => ?_⟩, ?_, g7, hafter f g4, h3, .inl ⟨op, data, h2, ?_⟩⟩
    · exfalso; have h : f.opcode = 8 := h; omega
    · simp only [g5, if_true]
      refine ⟨g4, hlen, ?_⟩
      unfold unpackMessage
      simp only [withInflator, h4]
      by_cases hp0 : x.payload = []
      · rw [if_pos hp0]
        have := h7 hp0
        rw [this] at h5 h6
        simp only [h5]
        rw [← h6, h8]
      · rw [if_neg hp0]
        simp only [h5]
        rw [← h6, h8]
    · rw [h2]
      simp only [Sent.meant, assemble1, g6]
      rw [if_pos ho]; simp [extend, g4]

/-- Frames one after another. -/
theorem items_are (c : Sender S) (env : Env R) (zr : Zlib R) (grow : Bytes → Nat → Nat) (max k : Nat) (hmax : 125 ≤ max ∧ max < 2 ^ 64) (xs : List Item) : ∀ r r',
    ChainAt c.pmce zr grow max k r xs r' → (∀ x ∈ xs, compressed (x.bytes c.server) = true → (x.bytes c.server).length ≤ max + 2) →
    ∃ ss : List Sent, ss.map (fun s => onWire [s]) = xs.map (·.bytes c.server) ∧
      Readable max (unpackMessage (withInflator env zr grow max k).inflate_stream (withInflator env zr grow max k).inflate_finish) r ss ∧ LegalSequence (!c.server) c.pmce false (ss.map Sent.frame) ∧
      WithinLimit max .idle (ss.map Sent.meant) ∧ WithinLimit max .closed (ss.map Sent.meant) ∧ (assemble .idle (ss.map Sent.meant)).2 = untilClose (xs.map (·.what)) := by
  induction xs with
  | nil => intro r r' _ _; exact ⟨[], rfl, trivial, trivial, trivial, trivial, rfl⟩
  | cons x xs ih =>
    rintro r r' ⟨m, hm, hc⟩ hl
    obtain ⟨s, i1, i2, i3, i4, i5, i6, i7⟩ := item_is c env zr grow max k hmax r m x hm (hl x (by simp))
    obtain ⟨ss, j1, j2, j3, j4, j5, j6⟩ := ih m r' hc (fun y hy => hl y (by simp [hy]))
    refine ⟨s :: ss, by simp [i1, j1], ⟨i2.1, i2.2.1, i2.2.2, ?_⟩, ⟨i4, by rw [i5]; exact j3⟩, ⟨i6, ?_⟩, ⟨i6, j5⟩, ?_⟩
    · by_cases hr : s.frame.rsv1 = true
      · simp only [hr, if_true] at i3 ⊢
        exact ⟨i3.1, i3.2.1, m, i3.2.2, j2⟩
      · simp only [hr, Bool.false_eq_true, if_false] at i3 ⊢
        obtain ⟨e1, rfl⟩ := i3
        exact ⟨e1, j2⟩
    · rcases i7 with ⟨op, data, -, e⟩ | ⟨st, reason, -, e⟩
      · rw [e]; exact j4
      · rw [e]; exact j5
    · simp only [List.map_cons, assemble]
      rcases i7 with ⟨op, data, e0, e⟩ | ⟨st, reason, e0, e⟩
      · rw [e, e0]
        simp only [j6, untilClose, List.cons_append, List.nil_append]
      · rw [e, e0]
        have : ∀ l, (assemble .closed l).2 = [] := by
          intro l
          induction l with
          | nil => rfl
          | cons y t ih => simp only [assemble, assemble1, ih, List.append_nil]
        simp only [untilClose, this, List.append_nil]

/-- The same, for reads of whole frames. -/
theorem groups {ss : List Sent} : ∀ {reads : List (List Bytes)}, ss.map (fun s => onWire [s]) = reads.flatten → ∃ gs : List (List Sent), gs.flatten = ss ∧ gs.map onWire = reads.map List.flatten := by
  intro reads
  induction reads generalizing ss with
  | nil =>
    intro h
    have : ss = [] := by cases ss with | nil => rfl | cons => simp at h
    exact ⟨[], by simp [this], rfl⟩
  | cons q reads ih =>
    intro h
    rw [List.flatten_cons] at h
    obtain ⟨a, b, rfl, ha, hb⟩ := List.map_eq_append_iff.1 h
    obtain ⟨gs, g1, g2⟩ := ih hb
    refine ⟨a :: gs, by simp [g1], ?_⟩
    simp only [List.map_cons, g2]
    congr 1
    rw [← ha]
    clear ha hb h
    induction a with
    | nil => rfl
    | cons x t ih => simp only [List.map_cons, List.flatten_cons, ← ih]; simp [onWire, wire]

/-- What threads send, as frames that the other end can read. -/
theorem peer_sent (c : Sender S) {zr : Zlib R} {codec : Codec} (hs : RawDeflates c.zs codec) (hr : RawInflates zr codec) (gr : Bytes → Nat → Nat) (hg : ∀ b r, r ≤ c.grow b r) (hgr : ∀ b r, r ≤ gr b r)
    (s0 : S) (r0 : R) (h0 : hs.inp s0 = [] ∧ hs.out s0 = [] ∧ hr.inp r0 = [] ∧ hr.out r0 = []) (max : Nat) (hmax : 125 ≤ max ∧ max < 2 ^ 64) (env : Env R)
    (acts : List Act) (hl : ∀ t op data rnd, .send t op data rnd ∈ acts → data.length ≤ max) :
    ∃ n σ all, (∀ k, n ≤ k → Peer.run c k { strm := s0 } acts = some σ) ∧ Interleaves σ.history all ∧ σ.wire.length = all.length ∧
      ((∀ f ∈ σ.wire, compressed f = true → f.length ≤ max + 2) → ∀ reads : List (List Bytes), reads.flatten <+: σ.wire → ∀ k, n ≤ k →
        ∃ gs : List (List Sent), gs.map onWire = reads.map List.flatten ∧
          Readable max (unpackMessage (withInflator env zr gr max k).inflate_stream (withInflator env zr gr max k).inflate_finish) r0 gs.flatten ∧ LegalSequence (!c.server) c.pmce false (gs.flatten.map Sent.frame) ∧
          WithinLimit max .idle (gs.flatten.map Sent.meant) ∧ (assemble .idle (gs.flatten.map Sent.meant)).2 = untilClose ((all.map (·.2)).take reads.flatten.length)) := by
  have hag : Agree hs hr s0 r0 := by
    refine ⟨?_, ?_, Or.inl h0.2.1, ⟨[], codec.nil.1, ?_⟩, ?_⟩
    · rw [h0.2.1]; exact codec.nil.1
    · rw [h0.2.1, h0.1]; exact codec.nil.2
    · rw [h0.2.1, h0.2.2.1]; rfl
    · rw [h0.2.2.1, h0.2.2.2]; exact codec.nil.2.symm
  have hinv : Inv c hs hr gr max r0 ({ strm := s0 } : Peer S) [] r0 r0 :=
    ⟨rfl, ⟨0, fun _ _ => rfl⟩, fun t => ⟨rfl, rfl⟩, fun _ => hag, (fun _ h => by cases h), .inl rfl⟩
  obtain ⟨n1, σ, e1, r1, v1, h1, i1⟩ := run_inv c hs hr hg hgr acts hinv hl
  simp only [List.nil_append] at i1
  obtain ⟨n2, h2⟩ := i1.chain
  refine ⟨Max.max n1 n2, σ, e1.map fun x => (x.thread, x.what), fun k hk => h1 k (by omega), i1.interleaves, by rw [i1.wire]; simp, ?_⟩
  intro hlim reads hreads k hk
  obtain ⟨rest, hrest⟩ := hreads
  rw [i1.wire] at hrest
  obtain ⟨xs, ys, hxy, hx, hy⟩ := List.map_eq_append_iff.1 hrest.symm
  have hch := h2 k (by omega)
  rw [hxy] at hch
  obtain ⟨m, hm, _⟩ := hch.split
  have hmem : ∀ x ∈ xs, compressed (x.bytes c.server) = true → (x.bytes c.server).length ≤ max + 2 := by
    intro x hx' hc
    exact hlim _ (by rw [i1.wire, hxy]; exact List.mem_map.2 ⟨x, by simp [hx'], rfl⟩) hc
  obtain ⟨ss, j1, j2, j3, j4, -, j6⟩ := items_are c env zr gr max k hmax xs r0 m hm hmem
  obtain ⟨gs, g1, g2⟩ := groups (j1.trans hx)
  refine ⟨gs, g2, by rw [g1]; exact j2, by rw [g1]; exact j3, by rw [g1]; exact j4, ?_⟩
  rw [g1, j6]
  have : (e1.map fun x => (x.thread, x.what)).map (·.2) = (xs ++ ys).map (·.what) := by
    rw [hxy, List.map_map]; rfl
  rw [this, List.map_append, ← hx, List.take_left' (by simp)]

end Verif.WsPeers
