import Verif.Spec.WsPeers
import Verif.Proofs.Zlib
import Verif.Props.WsSession
/-!
# Proofs about threads that send messages to the other end of a WebSocket connection
-/
namespace Verif.WsPeers
open Verif.Ws Verif.Zlib Verif.Spec Verif.Spec.WsPeers Verif.Props

/-! ## Decompression -/

/-- Decompression of a message by a session. -/
theorem inflate_two {zr : Zlib R} {codec : Codec} (hr : RawInflates zr codec) {grow : Bytes → Nat → Nat} (hg : ∀ b r, r ≤ grow b r) (r : R) (ho : hr.out r = codec.expand (hr.inp r))
    (payload m : Bytes) (limit : Nat) (hw : codec.Whole (hr.inp r ++ payload ++ marker)) (hx : codec.expand (hr.inp r ++ payload ++ marker) = hr.out r ++ m) (hlim : m.length ≤ limit) :
    ∃ n w1 e1 w2 e2, (∀ k, n ≤ k → inflateStream zr grow limit k { strm := r, buf := [] } payload = .done w1 [] e1) ∧
      (∀ k, n ≤ k → inflateMessageFinish zr grow k { strm := w1.strm, buf := [] } = .done w2 [] e2) ∧ w1.buf ++ w2.buf = m ∧ (payload = [] → w1 = { strm := r, buf := [] }) ∧
      hr.inp w2.strm = hr.inp r ++ payload ++ marker ∧ hr.out w2.strm = codec.expand (hr.inp w2.strm) := by
  -- the payload
  have hA : ∃ n1 w1 e1, (∀ k, n1 ≤ k → inflateStream zr grow limit k { strm := r, buf := [] } payload = .done w1 [] e1) ∧ Kept hr.toStream { strm := r, buf := [] } payload w1 [] ∧
      (payload = [] → w1 = { strm := r, buf := [] }) := by
    by_cases hp : payload.length = 0
    · have : payload = [] := List.eq_nil_of_length_eq_zero hp
      subst this
      exact ⟨0, _, .ok, fun k _ => rfl, Kept.refl _ _ _, fun _ => rfl⟩
    · obtain ⟨n1, o1, h1, hE1⟩ := loop_ends hr.toStream (accept_isRound zr hg (by decide : 0 < 1024) .sync) (l := { good := [.ok, .bufError], atEnd := true, limit := some limit }) (by simp)
        { strm := r, buf := [] } payload
      have hsafe := inflate_safe hr hg (by decide : 0 < 1024) (w := { strm := r, buf := [] }) (i := payload) (t := marker) hw (l := { good := [.ok, .bufError], atEnd := true, limit := some limit }) rfl
        (b := hr.out r) (m := m) (by simp) hx (by intro k hk; cases hk; exact hlim)
      rcases hE1 with ⟨w, _, hns⟩ | ⟨w, rr, e, rfl, hk, hge, hok, hbf, _⟩
      · exact absurd hsafe hns
      · have hrr : rr = [] := by
          rcases List.mem_cons.mp hge with rfl | hge
          · exact (hok rfl).2
          · exact hbf (by simpa using hge)
        subst hrr
        exact ⟨n1, w, e, fun k hk' => by unfold inflateStream; rw [if_neg hp]; exact h1 k hk', hk, fun h => absurd (by simp [h]) hp⟩
  obtain ⟨n1, w1, e1, h1, ⟨u, nw, ha, hb, hc, hd⟩, h0⟩ := hA
  simp only [List.append_nil, List.nil_append] at ha hd
  subst ha
  -- the end of it
  obtain ⟨n2, o2, h2, hE2⟩ := loop_ends hr.toStream (accept_isRound zr hg (by decide : 0 < 16) .sync) (l := { good := [.ok, .bufError], atEnd := false }) (by decide) { strm := w1.strm, buf := [] } marker
  have hw1 : codec.Whole (hr.inp w1.strm ++ marker ++ []) := by rw [List.append_nil, hb]; exact hw
  -- what is left of the message
  have hpre : ∃ m2, hr.out r ++ m = hr.out w1.strm ++ m2 := by
    have hcor : hr.out w1.strm <+: codec.expand (hr.inp w1.strm) := by
      have hsafe := inflate_safe hr hg (by decide : 0 < 16) (w := w1) (i := marker) (t := []) hw1 (l := { good := [.ok, .bufError], atEnd := false }) rfl (b := hr.out r) (m := m)
        (by rw [hc, hd]) (by rw [List.append_nil, hb]; exact hx) (by intro k hk; cases hk)
      by_cases hp : payload = []
      · rw [h0 hp, ho]; exact List.prefix_rfl
      · rcases hcall : zr.call w1.strm .sync [] 1 with ⟨s', c, p, e⟩
        have hv := hr.valid _ _ _ _ _ _ _ hcall marker (by rw [List.append_nil, hb]; exact hw)
        have h3 := hr.correct _ _ _ _ _ _ _ hcall hv.1
        have h4 := hr.totals _ _ _ _ _ _ _ _ hcall hv.1
        rw [h4.1, h4.2] at h3
        simp only [List.take_nil, List.append_nil] at h3
        exact (List.prefix_append _ _).trans h3
    have hm2 := hcor.trans (codec.mono (hr.inp w1.strm) marker)
    rw [hb, hx] at hm2
    obtain ⟨m2, h⟩ := hm2
    exact ⟨m2, h.symm⟩
  obtain ⟨m2, hm2⟩ := hpre
  have hsafe := inflate_safe hr hg (by decide : 0 < 16) (w := { strm := w1.strm, buf := [] }) (i := marker) (t := []) hw1 (l := { good := [.ok, .bufError], atEnd := false }) rfl (b := hr.out w1.strm) (m := m2)
    (by simp) (by simp only [List.append_nil]; rw [hb, hx, hm2]) (by intro k hk; cases hk)
  rcases hE2 with ⟨w, _, hns⟩ | ⟨w, rr, e, rfl, ⟨u2, nw2, ha2, hb2, hc2, hd2⟩, hge, hok, hbf, s1, k, i1, c, p, hk0, hcall, hi1⟩
  · exact absurd hsafe hns
  · have hbe : e = .bufError := by
      rcases List.mem_cons.mp hge with rfl | hge
      · exact absurd (hok rfl).1 (by simp)
      · simpa using hge
    subst hbe
    have := hbf rfl
    subst this
    simp only [List.append_nil, List.nil_append] at ha2 hd2
    subst ha2
    have hcomp : hr.out w.strm = codec.expand (hr.inp w.strm) := hr.complete _ _ _ _ _ _ _ hcall hk0 (Or.inl rfl)
    have hinp : hr.inp w.strm = hr.inp r ++ payload ++ marker := by rw [hb2, hb]
    refine ⟨max n1 n2, w1, e1, w, .bufError, fun k hk' => h1 k (by omega), fun k hk' => h2 k (by omega), ?_, h0, hinp, hcomp⟩
    have : hr.out r ++ (w1.buf ++ w.buf) = hr.out r ++ m := by
      rw [← hx, ← hinp, ← hcomp, hc2, hc, hd2, hd, List.append_assoc]
    exact List.append_cancel_left this

/-! ## Frames -/

/-- A frame that has been composed: by which thread, for what, and of what. -/
structure Item where
  thread : Nat
  what : Delivered
  random : Nat
  first : Nat
  payload : Bytes

def Item.bytes (server : Bool) (x : Item) : Bytes := raw_frame server x.random x.first x.payload

/-- A frame that is not compressed. -/
inductive Item.Plain (max : Nat) (x : Item) : Prop
  | message (op : Nat) (h1 : x.first = 0b10000000 ||| op) (h2 : x.what = .message op x.payload) (h3 : op = 1 ∨ op = 2 ∨ (op = 9 ∨ op = 10) ∧ x.payload.length ≤ 125) (h4 : x.payload.length ≤ max)
  | close (st : Nat) (reason : Bytes) (h1 : x.first = 0b10000000 ||| 8) (h2 : x.what = .close st (reason.take 123)) (h3 : x.payload = close_payload st reason) (h4 : st < 65536)

/-- A compressed frame; `r` and `r'` are the states of the decompressor before and after it. -/
structure Item.Packed (zr : Zlib R) (grow : Bytes → Nat → Nat) (max k : Nat) (r : R) (x : Item) (r' : R) : Prop where
  op : ∃ op data, (op = 1 ∨ op = 2) ∧ x.first = 0b11000000 ||| op ∧ x.what = .message op data ∧ data.length ≤ max ∧ ∃ w1 e1 w2 e2,
    inflateStream zr grow max k { strm := r, buf := [] } x.payload = .done w1 [] e1 ∧ inflateMessageFinish zr grow k { strm := w1.strm, buf := [] } = .done w2 [] e2 ∧ w1.buf ++ w2.buf = data ∧
    (x.payload = [] → w1 = { strm := r, buf := [] }) ∧ w2.strm = r'

def Item.At (pmce : Bool) (zr : Zlib R) (grow : Bytes → Nat → Nat) (max k : Nat) (r : R) (x : Item) (r' : R) : Prop :=
  x.Plain max ∧ r' = r ∨ pmce = true ∧ x.Packed zr grow max k r r'

def Item.Step (pmce : Bool) (zr : Zlib R) (grow : Bytes → Nat → Nat) (max : Nat) (r : R) (x : Item) (r' : R) : Prop := ∃ n, ∀ k, n ≤ k → x.At pmce zr grow max k r r'

def ChainAt (pmce : Bool) (zr : Zlib R) (grow : Bytes → Nat → Nat) (max k : Nat) : R → List Item → R → Prop
  | r, [], r' => r' = r
  | r, x :: xs, r' => ∃ m, x.At pmce zr grow max k r m ∧ ChainAt pmce zr grow max k m xs r'

def Chain (pmce : Bool) (zr : Zlib R) (grow : Bytes → Nat → Nat) (max : Nat) (r : R) (xs : List Item) (r' : R) : Prop := ∃ n, ∀ k, n ≤ k → ChainAt pmce zr grow max k r xs r'

theorem ChainAt.snoc {pmce : Bool} {zr : Zlib R} {grow : Bytes → Nat → Nat} {max k : Nat} {xs : List Item} {x : Item} {m r' : R} : ∀ {r : R}, ChainAt pmce zr grow max k r xs m →
    x.At pmce zr grow max k m r' → ChainAt pmce zr grow max k r (xs ++ [x]) r' := by
  induction xs with
  | nil => intro r h hx; cases h; exact ⟨r', hx, rfl⟩
  | cons y ys ih => rintro r ⟨q, hq, h⟩ hx; exact ⟨q, hq, ih h hx⟩

theorem Chain.snoc {pmce : Bool} {zr : Zlib R} {grow : Bytes → Nat → Nat} {max : Nat} {xs : List Item} {x : Item} {r m r' : R} (h : Chain pmce zr grow max r xs m)
    (hx : x.Step pmce zr grow max m r') : Chain pmce zr grow max r (xs ++ [x]) r' := by
  obtain ⟨n1, h1⟩ := h
  obtain ⟨n2, h2⟩ := hx
  exact ⟨Max.max n1 n2, fun k hk => (h1 k (by omega)).snoc (h2 k (by omega))⟩

theorem ChainAt.split {pmce : Bool} {zr : Zlib R} {grow : Bytes → Nat → Nat} {max k : Nat} {xs ys : List Item} {r' : R} : ∀ {r : R}, ChainAt pmce zr grow max k r (xs ++ ys) r' →
    ∃ m, ChainAt pmce zr grow max k r xs m ∧ ChainAt pmce zr grow max k m ys r' := by
  induction xs with
  | nil => intro r h; exact ⟨r, rfl, h⟩
  | cons y xs ih => rintro r ⟨q, hq, h⟩; obtain ⟨m, h1, h2⟩ := ih h; exact ⟨m, ⟨q, hq, h1⟩, h2⟩

theorem close_length (st : Nat) (reason : Bytes) : (close_payload st reason).length ≤ 125 ∧ 2 ≤ (close_payload st reason).length := by
  unfold close_payload
  have : (beBytes 2 st).length = 2 := rfl
  rw [List.length_append, this, List.length_take]
  omega

/-- RSV1, and the length of a frame. -/
theorem raw_frame_first (server : Bool) (r op : Nat) (data : Bytes) (hop : op < 256) : compressed (raw_frame server r op data) = op.testBit 6 ∧ data.length + 2 ≤ (raw_frame server r op data).length := by
  obtain ⟨f, ⟨h1, h2⟩, h3, h4, h5, h6, h7, h8, h9⟩ := raw_frame_spec server r op data hop
  rw [h1, encode_eq]
  obtain ⟨_, b3, _⟩ := byte0_toNat f h8
  constructor
  · simp only [List.cons_append, compressed, List.head?_cons, Option.any_some]
    rw [b3, h4]
  · simp only [List.cons_append, List.length_cons, List.length_append, transform_length]
    omega

/-- What a session that receives has to do with the one that sends. -/
structure Fits (c : Sender S) (max : Nat) (r : R) (s : Session R) : Prop where
  waiting : Waiting s.parser
  isOpen : s.closure_notified = false
  between : inMessage s.parser = false
  max : s.parser.max_message_length = max
  role : isServer s.parser = !c.server
  pmce : hasPmce s.parser = c.pmce
  strm : c.pmce = true → s.pmce.map Prod.fst = some r

/-- One frame is received. -/
theorem item_step (c : Sender S) (env : Env R) (zr : Zlib R) (grow : Bytes → Nat → Nat) (max k : Nat) (hmax : 125 ≤ max ∧ max < 2 ^ 64) (hq : Quiet env max) (s : Session R) (r r' : R) (hs : Fits c max r s) (x : Item)
    (hx : x.At c.pmce zr grow max k r r') (hlim : compressed (x.bytes c.server) = true → (x.bytes c.server).length ≤ max + 2) (addr : Nat) (rest : Bytes) :
    ∃ t, delivered t.trace = delivered s.trace ++ [x.what] ∧
      ((∃ st reason, x.what = .close st reason) ∧ s.iterate (withInflator env zr grow max k) addr (x.bytes c.server ++ rest) = .stop t [] ∧ t.closure_notified = true ∨
       (∃ op data, x.what = .message op data) ∧ s.iterate (withInflator env zr grow max k) addr (x.bytes c.server ++ rest) = .next t rest ∧ Fits c max r' t) := by
  have hq' : Quiet (withInflator env zr grow max k) max := ⟨hq.data, hq.finish, hq.send, hq.close⟩
  have hidle : Agrees s .idle := ⟨hs.waiting, hs.isOpen, hs.between⟩
  -- the frame
  have hfr : ∀ op cc, x.first = cc ||| op → (cc = 0b10000000 ∨ cc = 0b11000000) → (op = 1 ∨ op = 2 ∨ op = 8 ∨ op = 9 ∨ op = 10) → x.payload.length ≤ max → (op ≥ 8 → x.payload.length ≤ 125 ∧ cc = 0b10000000) →
      (cc = 0b11000000 → c.pmce = true) →
      ∃ f : WsFrame, x.bytes c.server = encode (toHeader f) ++ f.transform x.payload ∧ f.Fits ∧ x.payload.length = f.len ∧ f.fin = true ∧ f.rsv1 = decide (cc = 0b11000000) ∧ f.opcode = op ∧
        f.Legal (isServer s.parser) (hasPmce s.parser) (inMessage s.parser) := by
    intro op cc h1 hcc ho hl h8 hp
    have hbits : cc ||| op < 256 ∧ (cc ||| op).testBit 7 = true ∧ (cc ||| op).testBit 6 = decide (cc = 0b11000000) ∧ (cc ||| op).testBit 5 = false ∧ (cc ||| op).testBit 4 = false ∧ (cc ||| op) &&& 15 = op := by
      rcases hcc with rfl | rfl <;> rcases ho with rfl | rfl | rfl | rfl | rfl <;> decide
    obtain ⟨f, ⟨g1, g2⟩, g3, g4, g5, g6, g7, g8, g9⟩ := raw_frame_spec c.server x.random (cc ||| op) x.payload hbits.1
    rw [hbits.2.1] at g3; rw [hbits.2.2.1] at g4; rw [hbits.2.2.2.1] at g5; rw [hbits.2.2.2.2.1] at g6; rw [hbits.2.2.2.2.2] at g7
    refine ⟨f, by unfold Item.bytes; rw [h1]; exact g1, ⟨g8, ?_, by omega⟩, g2.symm, g3, g4, g7, ?_, ?_⟩
    · intro key hk
      rw [g9] at hk
      cases hc : c.server with
      | true => simp [hc] at hk
      | false => simp [hc] at hk; rw [← hk]; exact Nat.mod_lt _ (by decide)
    · rw [hs.role, g9]
      intro hc hn
      cases hc' : c.server with
      | true => simp [hc'] at hc
      | false => simp [hc'] at hn
    · rw [hs.between, hs.pmce, g3, g4, g5, g6, g7]
      by_cases ho8 : op ≥ 8
      · right; right
        refine ⟨by omega, rfl, by have := (h8 ho8).1; omega, ?_, rfl, rfl⟩
        rw [(h8 ho8).2]; decide
      · left
        refine ⟨by omega, rfl, ?_, rfl, rfl⟩
        intro h; exact hp (by simpa using h)
  -- frames that are not compressed
  have plain : ∀ op f, x.bytes c.server = encode (toHeader f) ++ f.transform x.payload → f.Fits → x.payload.length = f.len → f.fin = true → f.rsv1 = false → f.opcode = op →
      f.Legal (isServer s.parser) (hasPmce s.parser) (inMessage s.parser) → (op = 8 → x.payload.length ≠ 1) → x.payload.length ≤ max → r' = r →
      ∀ what fin', assemble1 .idle (f, x.payload) = (fin', [what]) → x.what = what →
      (fin' = .closed ∧ (∃ st reason, what = .close st reason) ∨ fin' = .idle ∧ ∃ op data, what = .message op data) →
      ∃ t, delivered t.trace = delivered s.trace ++ [x.what] ∧
      ((∃ st reason, x.what = .close st reason) ∧ s.iterate (withInflator env zr grow max k) addr (x.bytes c.server ++ rest) = .stop t [] ∧ t.closure_notified = true ∨
       (∃ op data, x.what = .message op data) ∧ s.iterate (withInflator env zr grow max k) addr (x.bytes c.server ++ rest) = .next t rest ∧ Fits c max r' t) := by
    intro op f h1 h2 h3 h4 h5 h6 h7 h8 h9 h10 what fin' h11 h12 h13
    subst h10
    obtain ⟨t, t1, t2, t3⟩ := frame_step (withInflator env zr grow max k) max hq' s .idle hidle (by simp) hs.max (f, x.payload) ⟨h2, h3, h5, by rw [h6]; exact h8⟩ h7 h9 addr rest
    rw [h11] at t1 t2 t3
    refine ⟨t, by rw [t2, h12], ?_⟩
    rw [h12, h1]
    rcases h13 with ⟨rfl, h14⟩ | ⟨rfl, h14⟩
    · rw [if_pos rfl] at t3
      exact .inl ⟨h14, t3, t1⟩
    · rw [if_neg (by simp)] at t3
      obtain ⟨t4, t5, t6, t7, t8, t9⟩ := t3
      exact .inr ⟨h14, t4, t1.1, t1.2.1, t1.2.2, t5, t6.trans hs.role, t7.trans hs.pmce, fun hp => t9.trans (hs.strm hp)⟩
  rcases hx with ⟨⟨op, h1, h2, h3, h4⟩ | ⟨st, reason, h1, h2, h3, h4⟩, hr⟩ | ⟨hp, hx⟩
  · obtain ⟨f, g1, g2, g3, g4, g5, g6, g7⟩ := hfr op _ h1 (.inl rfl) (by omega) h4 (fun h => ⟨by omega, rfl⟩) (fun h => by simp at h)
    refine plain op f g1 g2 g3 g4 (by simpa using g5) g6 g7 (by omega) h4 hr (.message op x.payload) .idle ?_ h2 (.inr ⟨rfl, _, _, rfl⟩)
    simp only [assemble1, g6]
    by_cases h12 : op = 1 ∨ op = 2
    · rw [if_pos h12]; simp [extend, g4]
    · rw [if_neg h12, if_neg (by omega), if_neg (by omega)]
  · have hl := close_length st reason
    rw [← h3] at hl
    obtain ⟨f, g1, g2, g3, g4, g5, g6, g7⟩ := hfr 8 _ h1 (.inl rfl) (by omega) (by omega) (fun h => ⟨by omega, rfl⟩) (fun h => by simp at h)
    refine plain 8 f g1 g2 g3 g4 (by simpa using g5) g6 g7 (by omega) (by omega) hr (.close st (reason.take 123)) .closed ?_ h2 (.inl ⟨rfl, _, _, rfl⟩)
    simp only [assemble1, g6]
    rw [if_neg (by omega), if_neg (by omega), if_pos trivial]
    have hne : x.payload.isEmpty = false := by cases hp : x.payload with | nil => simp [hp] at hl | cons => rfl
    have htd : x.payload.take 2 = beBytes 2 st ∧ x.payload.drop 2 = reason.take 123 := by rw [h3]; exact ⟨rfl, rfl⟩
    rw [hne, htd.1, htd.2]
    simp only [Bool.false_eq_true, if_false]
    rw [beNat_beBytes, Nat.mod_eq_of_lt (by simpa using h4)]
  · obtain ⟨op, data, ho, h1, h2, h3, w1, e1, w2, e2, h4, h5, h6, h7, h8⟩ := hx.op
    have hop : x.first < 256 ∧ x.first.testBit 6 = true := by rw [h1]; rcases ho with rfl | rfl <;> decide
    have hl := raw_frame_first c.server x.random x.first x.payload hop.1
    have hlen : x.payload.length ≤ max := by
      have := hlim (by unfold Item.bytes; rw [hl.1]; exact hop.2)
      have h' := hl.2
      unfold Item.bytes at this
      omega
    obtain ⟨f, g1, g2, g3, g4, g5, g6, g7⟩ := hfr op _ h1 (.inr rfl) (by omega) hlen (fun h => by omega) (fun _ => hp)
    have hz := hs.strm hp
    cases hsp : s.pmce with
    | none => rw [hsp] at hz; cases hz
    | some zz =>
      obtain ⟨z, old⟩ := zz
      rw [hsp] at hz
      simp only [Option.map_some, Option.some.injEq] at hz
      subst hz
      obtain ⟨t, t1, t2, t3, t4, t5, t6, t7, t8, t9⟩ := compressed_step (withInflator env zr grow max k) s max hq' hs.waiting hs.isOpen hs.max f x.payload g2 g3 g7 (by simpa using g5) g4 (by omega)
        z w1.strm w2.strm old w1.buf w2.buf hsp (fun h => by rw [h7 h]; exact ⟨rfl, rfl⟩) (fun _ => by simp only [withInflator, h4]) (by simp only [withInflator, h5]) (by rw [h6]; exact h3) addr rest
      refine ⟨t, by rw [t5, h2, g6, h6], .inr ⟨⟨op, data, h2⟩, by rw [g1]; exact t1, t2, t3, t4, t7, t8.trans hs.role, t9.trans hs.pmce, fun _ => ?_⟩⟩
      rw [t6, ← h8]; rfl

/-- The state of a session that receives: waiting for a frame, or closed. -/
def Reading (c : Sender S) (max : Nat) (r : R) (closed : Bool) (s : Session R) : Prop := if closed then s.closure_notified = true else Fits c max r s

def hasClose (l : List Delivered) : Bool := l.any fun d => match d with | .close _ _ => true | _ => false

theorem untilClose_append (a b : List Delivered) : untilClose (a ++ b) = untilClose a ++ (if hasClose a then [] else untilClose b) := by
  induction a with
  | nil => simp [untilClose, hasClose]
  | cons x a ih =>
    cases x with
    | close st reason => simp [untilClose, hasClose]
    | message op data => simp only [List.cons_append, untilClose, ih]; simp [hasClose]

/-- A session that is closed ignores everything. -/
theorem closed_stream (env : Env R) (addr : Nat) (s : Session R) (h : s.closure_notified = true) (b : Bytes) : s.stream env addr b = (s, [], some false) := by
  rw [stream_eq]
  have : s.iterate env addr b = .stop s [] := by unfold Session.iterate; rw [if_pos (by simp [h])]
  rw [this]

/-- One read of whole frames. -/
theorem read_items (c : Sender S) (env : Env R) (zr : Zlib R) (grow : Bytes → Nat → Nat) (max k : Nat) (hmax : 125 ≤ max ∧ max < 2 ^ 64) (hq : Quiet env max) (addr : Nat) (r' : R) (xs : List Item) :
    ∀ (s : Session R) (r : R), Fits c max r s → ChainAt c.pmce zr grow max k r xs r' → (∀ x ∈ xs, compressed (x.bytes c.server) = true → (x.bytes c.server).length ≤ max + 2) →
      ∃ t, s.stream (withInflator env zr grow max k) addr (xs.map (·.bytes c.server)).flatten = (t, [], some false) ∧ delivered t.trace = delivered s.trace ++ untilClose (xs.map (·.what)) ∧
        Reading c max r' (hasClose (xs.map (·.what))) t := by
  induction xs with
  | nil =>
    intro s r hs hc _
    cases hc
    obtain ⟨f1, f2, f3, f4, f5, f6, f7, f8⟩ := forget_fields s.parser
    have hag := agrees_forget s { s with parser := s.parser.forget } .idle ⟨hs.waiting, hs.isOpen, hs.between⟩ rfl rfl rfl
    refine ⟨{ s with parser := s.parser.forget }, ?_, by simp [untilClose], ?_⟩
    · rw [stream_eq]
      have hh : s.parser.parse_frame_header [] = .ok (s.parser.forget, []) := by
        unfold Parser.parse_frame_header
        rw [if_neg (by simp [hs.waiting.established]), if_neg (by simp [hs.waiting.new])]
      have : s.iterate (withInflator env zr grow max k) addr [] = .stop { s with parser := s.parser.forget } [] := by
        unfold Session.iterate
        rw [if_neg (by simp [Parser.error, hs.waiting.new, hs.isOpen]), if_pos (by simp [Parser.frame_header_complete, hs.waiting.new]), hh]
        simp only
        rw [if_neg (by simp [Parser.error, f1, hs.waiting.new]), if_pos (by simp [Parser.frame_header_complete, f1, hs.waiting.new])]
      simp only [List.map_nil, List.flatten_nil]
      rw [this]
    · show Fits c max r' _
      exact ⟨hag.1, hag.2.1, hag.2.2, by rw [← hs.max]; exact f8, by rw [← hs.role]; unfold isServer; rw [f2], by rw [← hs.pmce]; unfold hasPmce; rw [f6], hs.strm⟩
  | cons x xs ih =>
    rintro s r hs ⟨m, hm, hc⟩ hl
    obtain ⟨t, t1, t2⟩ := item_step c env zr grow max k hmax hq s r m hs x hm (hl x (by simp)) addr (xs.map (·.bytes c.server)).flatten
    simp only [List.map_cons, List.flatten_cons]
    rw [stream_eq]
    rcases t2 with ⟨⟨st, reason, hw⟩, t3, t4⟩ | ⟨⟨op, data, hw⟩, t3, t4⟩
    · rw [t3]
      refine ⟨t, rfl, by rw [t1, hw]; rfl, ?_⟩
      rw [hw]
      exact t4
    · rw [t3]
      obtain ⟨u, u1, u2, u3⟩ := ih t m t4 hc (fun y hy => hl y (by simp [hy]))
      refine ⟨u, u1, by rw [u2, t1, hw]; simp [untilClose], ?_⟩
      rw [hw]
      simpa [hasClose] using u3

/-- Reads of whole frames. -/
theorem reads_items (c : Sender S) (env : Env R) (zr : Zlib R) (grow : Bytes → Nat → Nat) (max k : Nat) (hmax : 125 ≤ max ∧ max < 2 ^ 64) (hq : Quiet env max) (reads : List (Nat × List Bytes)) :
    ∀ (s : Session R) (r r' : R) (closed : Bool) (xs : List Item), Reading c max r closed s → ChainAt c.pmce zr grow max k r xs r' → (reads.map (·.2)).flatten = xs.map (·.bytes c.server) →
      (∀ x ∈ xs, compressed (x.bytes c.server) = true → (x.bytes c.server).length ≤ max + 2) →
      delivered ((reads.map fun q => Input.stream q.1 q.2.flatten).foldl (Session.input (withInflator env zr grow max k)) s).trace =
        delivered s.trace ++ (if closed then [] else untilClose (xs.map (·.what))) := by
  induction reads with
  | nil =>
    intro s r r' closed xs hs hc hx _
    have : xs = [] := by cases xs with | nil => rfl | cons => simp at hx
    subst this
    simp [untilClose]
  | cons q reads ih =>
    intro s r r' closed xs hs hc hx hl
    simp only [List.map_cons, List.flatten_cons] at hx
    obtain ⟨as, bs, rfl, ha, hb⟩ := List.map_eq_append_iff.1 hx.symm
    obtain ⟨m, hm1, hm2⟩ := hc.split
    simp only [List.map_cons, List.foldl_cons]
    cases closed with
    | true =>
      have hin : s.input (withInflator env zr grow max k) (.stream q.1 q.2.flatten) = s := by
        show (s.stream _ q.1 q.2.flatten).1 = s
        rw [closed_stream _ _ _ hs]
      rw [hin, ih s m r' true bs hs hm2 hb.symm (fun y hy => hl y (by simp [hy]))]
      simp
    | false =>
      obtain ⟨t, t1, t2, t3⟩ := read_items c env zr grow max k hmax hq q.1 m as s r hs hm1 (fun y hy => hl y (by simp [hy]))
      have hin : s.input (withInflator env zr grow max k) (.stream q.1 q.2.flatten) = t := by
        show (s.stream _ q.1 q.2.flatten).1 = t
        rw [← ha, t1]
      rw [hin, ih t m r' _ bs t3 hm2 hb.symm (fun y hy => hl y (by simp [hy])), t2]
      simp [untilClose_append]

/-! ## Compression -/

/-- A message is compressed, and the other end can decompress it; or it is not compressed. -/
theorem compress_ends {zs : Zlib S} {zr : Zlib R} {codec : Codec} (hs : RawDeflates zs codec) (hr : RawInflates zr codec) {grow gr : Bytes → Nat → Nat} (hg : ∀ b r, r ≤ grow b r) (hgr : ∀ b r, r ≤ gr b r) (noCtx : Bool) (max : Nat)
    (s : S) (r : R) (h : Agree hs hr s r) (data : Bytes) (hl : data.length ≤ max) (ht : data.length ≥ (if noCtx then 1024 else 64)) :
    ∃ n x, (∀ k, n ≤ k → sendMessage zs grow noCtx k s data = some x) ∧
      (x.compressed = false ∧ x.payload = data ∧ Agree hs hr x.strm r ∨
       x.compressed = true ∧ ∃ r', Agree hs hr x.strm r' ∧ ∃ w1 e1 w2 e2, (∀ k, n ≤ k → inflateStream zr gr max k { strm := r, buf := [] } x.payload = .done w1 [] e1) ∧
        (∀ k, n ≤ k → inflateMessageFinish zr gr k { strm := w1.strm, buf := [] } = .done w2 [] e2) ∧ w1.buf ++ w2.buf = data ∧ (x.payload = [] → w1 = { strm := r, buf := [] }) ∧ w2.strm = r') := by
  have hm : data ≠ [] := by intro h0; subst h0; cases noCtx <;> simp at ht
  have hag : Agree hs hr (if noCtx then zs.reset s else s) r := by
    split
    · exact h.reset s
    · exact h
  revert hag
  generalize hs0 : (if noCtx then zs.reset s else s) = s0
  intro hag
  obtain ⟨n1, h1⟩ := deflate_message hs hg s0 hag.marked hag.expand data hm
  rcases h1 with ⟨w, hw⟩ | ⟨w, rr, e, hw, ⟨w', hw'⟩ | ⟨w', r', e', hw', ho, hi, hW, hX⟩⟩
  · refine ⟨n1, { strm := zs.reset w.strm, payload := data, compressed := false }, fun k hk => ?_, .inl ⟨rfl, rfl, h.reset _⟩⟩
    unfold sendMessage
    simp only
    rw [if_pos ht, hs0, hw k hk]
  · refine ⟨n1, { strm := zs.reset w'.strm, payload := data, compressed := false }, fun k hk => ?_, .inl ⟨rfl, rfl, h.reset _⟩⟩
    unfold sendMessage
    simp only
    rw [if_pos ht, hs0, hw k hk]
    simp only
    rw [hw' k hk]
  · obtain ⟨x, hx, hxi⟩ := hag.before
    have hall : hr.inp r ++ w'.buf ++ marker = x ++ hs.out w'.strm := by rw [hxi, ho]; simp only [List.append_assoc]
    have happ := codec.append _ _ hx hW
    have happ0 := codec.append _ _ hx hag.whole
    have hexp : codec.expand (hr.inp r ++ w'.buf ++ marker) = hr.out r ++ data := by
      rw [hall, happ.2, hX, hi, hag.output, hxi, happ0.2, hag.expand, List.append_assoc]
    obtain ⟨n2, w1, e1, w2, e2, a1, a2, a3, a4, a5, a6⟩ := inflate_two hr hgr r hag.output w'.buf data max (by rw [hall]; exact happ.1) hexp hl
    refine ⟨Max.max n1 n2, { strm := w'.strm, payload := w'.buf, compressed := true }, fun k hk => ?_, .inr ⟨rfl, w2.strm, ?_, w1, e1, w2, e2, fun k hk => a1 k (by omega), fun k hk => a2 k (by omega), a3, a4, rfl⟩⟩
    · unfold sendMessage
      simp only
      rw [if_pos ht, hs0, hw k (by omega)]
      simp only
      rw [hw' k (by omega)]
    · refine ⟨hW, hX, Or.inr ?_, ⟨x, hx, by rw [a5, hall]⟩, a6⟩
      rw [ho]; exact List.suffix_append _ _

/-! ## Histories -/

theorem progress_snoc (t : Nat) (h : List Event) (e : Event) : (h ++ [e]).foldl (progress t) ([], none) = progress t (accepted t h, current t h) e := by
  rw [List.foldl_append]; rfl

theorem called_spec (t u : Nat) (h : List Event) (e : Event) (m : Delivered) (he : told e = some (u, m)) :
    accepted t (h ++ [e]) = accepted t h ∧ current t (h ++ [e]) = if u = t then some m else current t h := by
  unfold accepted current
  rw [progress_snoc]
  cases e with
  | returned v ok => cases he
  | send v op data => simp only [progress, he, accepted, current]; split <;> exact ⟨rfl, rfl⟩
  | shutDown v st reason => simp only [progress, he, accepted, current]; split <;> exact ⟨rfl, rfl⟩

theorem returned_spec (t u : Nat) (h : List Event) (ok : Bool) :
    accepted t (h ++ [.returned u ok]) = (if u = t ∧ ok = true then accepted t h ++ (current t h).toList else accepted t h) ∧
    current t (h ++ [.returned u ok]) = if u = t then none else current t h := by
  unfold accepted current
  rw [progress_snoc]
  simp only [progress, accepted, current]
  by_cases hu : u = t
  · cases ok <;> simp [hu]
  · simp [hu]

/-! ## What is always so -/

def own (log : List Item) (t : Nat) : List Delivered := (log.filter (·.thread = t)).map (·.what)

theorem own_snoc (log : List Item) (x : Item) (t : Nat) : own (log ++ [x]) t = own log t ++ (if x.thread = t then [x.what] else []) := by
  unfold own
  rw [List.filter_append]
  by_cases h : x.thread = t <;> simp [h]

def isClose : Delivered → Bool
  | .close _ _ => true
  | _ => false

/-- A thread that has composed a frame; it is not compressed, unless the thread has locked the mutex. -/
structure Composed (c : Sender S) (max : Nat) (packed : Item → Prop) (σ : Peer S) (log : List Item) (t : Nat) (f : Bytes) (cl : Bool) (x : Item) : Prop where
  thread : x.thread = t
  bytes : x.bytes c.server = f
  current : current t σ.history = some x.what
  accepted : own log t = accepted t σ.history
  plain : σ.owner ≠ some t → x.Plain max
  packed : σ.owner = some t → packed x

def Thread (c : Sender S) (max : Nat) (packed : Item → Prop) (σ : Peer S) (log : List Item) (t : Nat) : Prop :=
  match σ.pc t with
  | .idle => current t σ.history = none ∧ own log t = accepted t σ.history
  | .ready f cl => ∃ x, Composed c max packed σ log t f cl x
  | .checked f cl => ∃ x, Composed c max packed σ log t f cl x
  | .accepted _ => ∃ m, current t σ.history = some m ∧ own log t = accepted t σ.history ++ [m]

/-- `r` is the state of the decompressor after all frames on the wire; `v` is what it would be if no compressed frame had been lost. -/
structure Inv (c : Sender S) {zr : Zlib R} {codec : Codec} (hs : RawDeflates c.zs codec) (hr : RawInflates zr codec) (gr : Bytes → Nat → Nat) (max : Nat) (r0 : R) (σ : Peer S) (log : List Item) (r v : R) : Prop where
  wire : σ.wire = log.map (·.bytes c.server)
  chain : Chain c.pmce zr gr max r0 log r
  threads : ∀ t, Thread c max (fun x => ∃ v', x.Step c.pmce zr gr max v v' ∧ Agree hs hr σ.strm v') σ log t
  free : (∀ t, σ.owner = some t → ∃ cl, σ.pc t = .accepted cl) → Agree hs hr σ.strm v
  holds : ∀ t, σ.owner = some t → σ.pc t ≠ .idle
  lost : v = r ∨ σ.closing = true ∧ ∀ t, σ.owner = some t → ∃ f cl, σ.pc t = .ready f cl

theorem Thread.frame {c : Sender S} {max : Nat} {P P' : Item → Prop} {σ σ' : Peer S} {log log' : List Item} {u : Nat} (h : Thread c max P σ log u) (hpc : σ'.pc u = σ.pc u)
    (hc : current u σ'.history = current u σ.history) (ha : accepted u σ'.history = accepted u σ.history) (hw : own log' u = own log u) (ho : σ'.owner = some u ↔ σ.owner = some u)
    (hP : σ.owner = some u → ∀ x, P x → P' x) : Thread c max P' σ' log' u := by
  unfold Thread at h ⊢
  rw [hpc]
  have key : ∀ f cl x, Composed c max P σ log u f cl x → Composed c max P' σ' log' u f cl x := by
    intro f cl x h
    exact ⟨h.thread, h.bytes, by rw [hc]; exact h.current, by rw [hw, ha]; exact h.accepted, fun hn => h.plain (fun h' => hn (ho.2 h')), fun hn => hP (ho.1 hn) x (h.packed (ho.1 hn))⟩
  split at h
  · rw [hc, hw, ha]; exact h
  · obtain ⟨x, h⟩ := h; exact ⟨x, key _ _ _ h⟩
  · obtain ⟨x, h⟩ := h; exact ⟨x, key _ _ _ h⟩
  · rw [hc, hw, ha]; exact h

theorem setPc_self (f : Nat → Pc) (t : Nat) (p : Pc) : setPc f t p t = p := by simp [setPc]
theorem setPc_other (f : Nat → Pc) (t u : Nat) (p : Pc) (h : u ≠ t) : setPc f t p u = f u := by simp [setPc, h]

section
variable {c : Sender S} {zr : Zlib R} {codec : Codec} {hs : RawDeflates c.zs codec} {hr : RawInflates zr codec} {gr : Bytes → Nat → Nat} {max : Nat} {r0 : R} {σ : Peer S} {log : List Item} {r v : R}

/-- A thread that is outside of all functions has not locked the mutex. -/
theorem Inv.unlocked (h : Inv c hs hr gr max r0 σ log r v) {t : Nat} (ht : σ.pc t = .idle) : σ.owner ≠ some t := fun ho => h.holds t ho ht

/-- A call that is refused. -/
theorem Inv.refused (h : Inv c hs hr gr max r0 σ log r v) {t : Nat} (ht : σ.pc t = .idle) (e : Event) (m : Delivered) (he : told e = some (t, m)) :
    Inv c hs hr gr max r0 (({ σ with history := σ.history ++ [e] } : Peer S).leave t false) log r v := by
  have hu := h.unlocked ht
  have ho : (({ σ with history := σ.history ++ [e] } : Peer S).leave t false).owner = σ.owner := by simp [Peer.leave, hu]
  have hpc : (({ σ with history := σ.history ++ [e] } : Peer S).leave t false).pc = σ.pc := by
    funext u
    by_cases hut : u = t
    · subst hut; simp [Peer.leave, setPc, ht]
    · simp [Peer.leave, setPc, hut]
  refine ⟨h.wire, h.chain, ?_, ?_, ?_, ?_⟩
  · intro u
    have hT := h.threads u
    have hp : accepted u (σ.history ++ [e] ++ [.returned t false]) = accepted u σ.history ∧ current u (σ.history ++ [e] ++ [.returned t false]) = if t = u then none else current u σ.history := by
      rw [(returned_spec u t _ false).1, (returned_spec u t _ false).2, (called_spec u t _ e m he).1, (called_spec u t _ e m he).2]
      by_cases hut : t = u <;> simp [hut]
    by_cases hut : t = u
    · subst hut
      unfold Thread at hT ⊢
      rw [ht] at hT
      rw [hpc, ht]
      refine ⟨?_, ?_⟩
      · show current t (σ.history ++ [e] ++ [.returned t false]) = none
        rw [hp.2]; simp
      · show _ = accepted t (σ.history ++ [e] ++ [.returned t false])
        rw [hp.1]; exact hT.2
    · refine hT.frame (by rw [hpc]) ?_ ?_ rfl (by rw [ho]) (fun _ x hx => hx)
      · show current u (σ.history ++ [e] ++ [.returned t false]) = _
        rw [hp.2, if_neg hut]
      · exact hp.1
  · rw [ho, hpc]; exact h.free
  · rw [ho, hpc]; exact h.holds
  · rw [ho, hpc]; exact h.lost

/-- A call that composes a frame that is not compressed. -/
theorem Inv.composed (h : Inv c hs hr gr max r0 σ log r v) {t : Nat} (ht : σ.pc t = .idle) (e : Event) (x : Item) (cl : Bool) (he : told e = some (t, x.what)) (hx : x.thread = t) (hp : x.Plain max) (s' : S)
    (hs' : σ.owner = none ∧ Agree hs hr s' v ∨ s' = σ.strm) :
    Inv c hs hr gr max r0 { σ with strm := s', pc := setPc σ.pc t (.ready (x.bytes c.server) cl), history := σ.history ++ [e] } log r v := by
  have hu := h.unlocked ht
  have hpc : ∀ u, σ.owner = some u → setPc σ.pc t (.ready (x.bytes c.server) cl) u = σ.pc u := by
    intro u ho
    exact setPc_other _ _ _ _ (fun hut => hu (hut ▸ ho))
  refine ⟨h.wire, h.chain, ?_, ?_, ?_, ?_⟩
  · intro u
    have hT := h.threads u
    by_cases hut : u = t
    · subst hut
      unfold Thread at hT ⊢
      rw [ht] at hT
      simp only [setPc_self]
      exact ⟨x, hx, rfl, by rw [(called_spec u u _ e _ he).2]; simp, by rw [(called_spec u u _ e _ he).1]; exact hT.2, fun _ => hp, fun ho => absurd ho hu⟩
    · refine hT.frame (setPc_other _ _ _ _ hut) ?_ (called_spec u t _ e _ he).1 rfl Iff.rfl ?_
      · simp only; rw [(called_spec u t _ e _ he).2, if_neg (fun h => hut h.symm)]
      · intro ho y hy
        rcases hs' with ⟨h1, _⟩ | h1
        · rw [h1] at ho; cases ho
        · simp only [h1]; exact hy
  · intro hf
    rcases hs' with ⟨_, h2⟩ | h1
    · exact h2
    · simp only [h1]
      refine h.free fun u ho => ?_
      obtain ⟨cl', h'⟩ := hf u ho
      exact ⟨cl', by rw [← hpc u ho]; exact h'⟩
  · intro u ho
    simp only
    rw [hpc u ho]; exact h.holds u ho
  · rcases h.lost with h1 | ⟨h1, h2⟩
    · exact .inl h1
    · refine .inr ⟨h1, fun u ho => ?_⟩
      obtain ⟨f, cl', h'⟩ := h2 u ho
      exact ⟨f, cl', by simp only; rw [hpc u ho]; exact h'⟩

/-- A call that composes a compressed frame. -/
theorem Inv.packed (h : Inv c hs hr gr max r0 σ log r v) {t : Nat} (ht : σ.pc t = .idle) (hf : σ.owner = none) (e : Event) (x : Item) (cl : Bool) (he : told e = some (t, x.what)) (hx : x.thread = t)
    (s' : S) (v' : R) (h1 : x.Step c.pmce zr gr max v v') (h2 : Agree hs hr s' v') :
    Inv c hs hr gr max r0 { σ with strm := s', owner := some t, pc := setPc σ.pc t (.ready (x.bytes c.server) cl), history := σ.history ++ [e] } log r v := by
  refine ⟨h.wire, h.chain, ?_, ?_, ?_, ?_⟩
  · intro u
    have hT := h.threads u
    by_cases hut : u = t
    · subst hut
      unfold Thread at hT ⊢
      rw [ht] at hT
      simp only [setPc_self]
      exact ⟨x, hx, rfl, by rw [(called_spec u u _ e _ he).2]; simp, by rw [(called_spec u u _ e _ he).1]; exact hT.2, fun ho => absurd rfl ho, fun _ => ⟨v', h1, h2⟩⟩
    · refine hT.frame (setPc_other _ _ _ _ hut) ?_ (called_spec u t _ e _ he).1 rfl ?_ ?_
      · simp only; rw [(called_spec u t _ e _ he).2, if_neg (fun h => hut h.symm)]
      · simp [hf, Ne.symm hut]
      · intro ho; rw [hf] at ho; cases ho
  · intro hf'
    obtain ⟨cl', h'⟩ := hf' t rfl
    simp [setPc_self] at h'
  · intro u ho
    simp only [Option.some.injEq] at ho
    subst ho
    simp [setPc_self]
  · rcases h.lost with h3 | ⟨h3, _⟩
    · exact .inl h3
    · refine .inr ⟨h3, fun u ho => ?_⟩
      simp only [Option.some.injEq] at ho
      subst ho
      exact ⟨_, _, setPc_self _ _ _⟩

/-- A frame is dropped because the socket is being closed. -/
theorem Inv.dropped (h : Inv c hs hr gr max r0 σ log r v) {t : Nat} {f : Bytes} {cl : Bool} (ht : σ.pc t = .ready f cl ∨ σ.pc t = .checked f cl) :
    ∃ v', Inv c hs hr gr max r0 (({ σ with closing := true } : Peer S).leave t false) log r v' := by
  have hT : ∃ x, Composed c max (fun x => ∃ v', x.Step c.pmce zr gr max v v' ∧ Agree hs hr σ.strm v') σ log t f cl x := by
    have hT := h.threads t
    unfold Thread at hT
    rcases ht with ht | ht <;> rw [ht] at hT <;> exact hT
  obtain ⟨x, hx⟩ := hT
  have hrest : ∀ v' : R, (σ.owner ≠ some t → v' = v) →
      ∀ u, Thread c max (fun x => ∃ w, x.Step c.pmce zr gr max v' w ∧ Agree hs hr σ.strm w) (({ σ with closing := true } : Peer S).leave t false) log u := by
    intro v' hv u
    have hT := h.threads u
    have hp := returned_spec u t σ.history false
    by_cases hut : u = t
    · subst hut
      unfold Thread
      simp only [Peer.leave, setPc_self]
      rw [hp.1, hp.2]
      simpa using hx.accepted
    · refine hT.frame (setPc_other _ _ _ _ hut) ?_ ?_ rfl ?_ ?_
      · show current u (σ.history ++ [.returned t false]) = _
        rw [hp.2, if_neg (Ne.symm hut)]
      · show accepted u (σ.history ++ [.returned t false]) = _
        rw [hp.1]; simp
      · show (if σ.owner = some t then none else σ.owner) = some u ↔ _
        by_cases hot : σ.owner = some t
        · simp [hot, Ne.symm hut]
        · simp [hot]
      · intro ho y hy
        rw [hv (by rw [ho]; simp [hut])]
        exact hy
  by_cases hot : σ.owner = some t
  · obtain ⟨v', h1, h2⟩ := hx.packed hot
    refine ⟨v', h.wire, h.chain, hrest v' (fun hn => absurd hot hn), fun _ => h2, ?_, .inr ⟨rfl, ?_⟩⟩ <;>
      · intro u ho
        simp [Peer.leave, hot] at ho
  · have ho' : (({ σ with closing := true } : Peer S).leave t false).owner = σ.owner := by simp [Peer.leave, hot]
    have hpc : ∀ u, σ.owner = some u → (({ σ with closing := true } : Peer S).leave t false).pc u = σ.pc u := fun u ho => setPc_other _ _ _ _ (fun hut => hot (hut ▸ ho))
    refine ⟨v, h.wire, h.chain, hrest v (fun _ => rfl), ?_, ?_, ?_⟩
    · intro hf
      rw [ho'] at hf
      exact h.free fun u ho => by rw [← hpc u ho]; exact hf u ho
    · rw [ho']
      intro u ho
      rw [hpc u ho]; exact h.holds u ho
    · rcases h.lost with h1 | ⟨_, h2⟩
      · exact .inl h1
      · refine .inr ⟨rfl, ?_⟩
        rw [ho']
        intro u ho
        rw [hpc u ho]; exact h2 u ho

/-- A thread finds the socket open. -/
theorem Inv.checked (h : Inv c hs hr gr max r0 σ log r v) {t : Nat} {f : Bytes} {cl : Bool} (ht : σ.pc t = .ready f cl) (hc : σ.closing = false) :
    Inv c hs hr gr max r0 { σ with pc := setPc σ.pc t (.checked f cl) } log r v := by
  refine ⟨h.wire, h.chain, ?_, ?_, ?_, ?_⟩
  · intro u
    have hT := h.threads u
    by_cases hut : u = t
    · subst hut
      unfold Thread at hT ⊢
      rw [ht] at hT
      simp only [setPc_self]
      obtain ⟨x, hx⟩ := hT
      exact ⟨x, hx.thread, hx.bytes, hx.current, hx.accepted, hx.plain, hx.packed⟩
    · exact hT.frame (setPc_other _ _ _ _ hut) rfl rfl rfl Iff.rfl (fun _ _ hy => hy)
  · intro hf
    refine h.free fun u ho => ?_
    obtain ⟨cl', h'⟩ := hf u ho
    by_cases hut : u = t
    · subst hut; simp [setPc_self] at h'
    · rw [show ({ σ with pc := setPc σ.pc t (.checked f cl) } : Peer S).pc u = σ.pc u from setPc_other _ _ _ _ hut] at h'; exact ⟨cl', h'⟩
  · intro u ho
    by_cases hut : u = t
    · subst hut; simp [setPc_self]
    · rw [show ({ σ with pc := setPc σ.pc t (.checked f cl) } : Peer S).pc u = σ.pc u from setPc_other _ _ _ _ hut]; exact h.holds u ho
  · rcases h.lost with h1 | ⟨h1, _⟩
    · exact .inl h1
    · rw [hc] at h1; cases h1

/-- A frame is accepted. -/
theorem Inv.put (h : Inv c hs hr gr max r0 σ log r v) {t : Nat} {f : Bytes} {cl : Bool} (ht : σ.pc t = .checked f cl) :
    ∃ x r' v', Inv c hs hr gr max r0 { σ with wire := σ.wire ++ [f], pc := setPc σ.pc t (.accepted cl) } (log ++ [x]) r' v' := by
  have hT : ∃ x, Composed c max (fun x => ∃ v', x.Step c.pmce zr gr max v v' ∧ Agree hs hr σ.strm v') σ log t f cl x := by
    have hT := h.threads t
    unfold Thread at hT
    rw [ht] at hT
    exact hT
  obtain ⟨x, hx⟩ := hT
  have hwire : σ.wire ++ [f] = (log ++ [x]).map (·.bytes c.server) := by rw [h.wire, List.map_append, ← hx.bytes]; rfl
  have hrest : ∀ v' : R, (σ.owner ≠ some t → v' = v) →
      ∀ u, Thread c max (fun x => ∃ w, x.Step c.pmce zr gr max v' w ∧ Agree hs hr σ.strm w) { σ with wire := σ.wire ++ [f], pc := setPc σ.pc t (.accepted cl) } (log ++ [x]) u := by
    intro v' hv u
    have hT := h.threads u
    by_cases hut : u = t
    · subst hut
      unfold Thread
      simp only [setPc_self]
      exact ⟨x.what, hx.current, by rw [own_snoc, if_pos hx.thread, hx.accepted]⟩
    · refine hT.frame (setPc_other _ _ _ _ hut) rfl rfl ?_ Iff.rfl ?_
      · rw [own_snoc, if_neg (by rw [hx.thread]; exact Ne.symm hut), List.append_nil]
      · intro ho y hy
        rw [hv (by rw [ho]; simp [hut])]
        exact hy
  by_cases hot : σ.owner = some t
  · obtain ⟨v', h1, h2⟩ := hx.packed hot
    have hvr : v = r := by
      rcases h.lost with h3 | ⟨_, h3⟩
      · exact h3
      · obtain ⟨f', cl', h'⟩ := h3 t hot
        rw [ht] at h'; cases h'
    subst hvr
    refine ⟨x, v', v', hwire, h.chain.snoc h1, hrest v' (fun hn => absurd hot hn), fun _ => h2, ?_, .inl rfl⟩
    intro u ho
    have : u = t := by simp only [hot, Option.some.injEq] at ho; exact ho.symm
    subst this
    simp [setPc_self]
  · have hpc : ∀ u, σ.owner = some u → setPc σ.pc t (.accepted cl) u = σ.pc u := fun u ho => setPc_other _ _ _ _ (fun hut => hot (hut ▸ ho))
    refine ⟨x, r, v, hwire, h.chain.snoc ⟨0, fun _ _ => .inl ⟨hx.plain hot, rfl⟩⟩, hrest v (fun _ => rfl), ?_, ?_, ?_⟩
    · intro hf
      exact h.free fun u ho => by rw [← hpc u ho]; exact hf u ho
    · intro u ho
      simp only
      rw [hpc u ho]; exact h.holds u ho
    · rcases h.lost with h1 | ⟨h1, h2⟩
      · exact .inl h1
      · refine .inr ⟨h1, fun u ho => ?_⟩
        simp only
        rw [hpc u ho]; exact h2 u ho

/-- A call returns. -/
theorem Inv.returned (h : Inv c hs hr gr max r0 σ log r v) {t : Nat} {cl : Bool} (ht : σ.pc t = .accepted cl) :
    Inv c hs hr gr max r0 (({ σ with closing := σ.closing || cl } : Peer S).leave t true) log r v := by
  have hT := h.threads t
  unfold Thread at hT
  rw [ht] at hT
  obtain ⟨m, hm1, hm2⟩ := hT
  refine ⟨h.wire, h.chain, ?_, ?_, ?_, ?_⟩
  · intro u
    have hT := h.threads u
    have hp := returned_spec u t σ.history true
    by_cases hut : u = t
    · subst hut
      unfold Thread
      simp only [Peer.leave, setPc_self]
      rw [hp.1, hp.2, hm1, hm2]
      simp
    · refine hT.frame (setPc_other _ _ _ _ hut) ?_ ?_ rfl ?_ (fun _ _ hy => hy)
      · show current u (σ.history ++ [.returned t true]) = _
        rw [hp.2, if_neg (Ne.symm hut)]
      · show accepted u (σ.history ++ [.returned t true]) = _
        rw [hp.1]; simp [Ne.symm hut]
      · show (if σ.owner = some t then none else σ.owner) = some u ↔ _
        by_cases hot : σ.owner = some t
        · simp [hot, Ne.symm hut]
        · simp [hot]
  · intro hf
    refine h.free fun u ho => ?_
    by_cases hut : u = t
    · exact ⟨cl, hut ▸ ht⟩
    · obtain ⟨cl', h'⟩ := hf u (by
        show (if σ.owner = some t then none else σ.owner) = some u
        rw [if_neg (by rw [ho]; simp [hut])]; exact ho)
      rw [show (({ σ with closing := σ.closing || cl } : Peer S).leave t true).pc u = σ.pc u from setPc_other _ _ _ _ hut] at h'
      exact ⟨cl', h'⟩
  · intro u ho
    have ho' : (if σ.owner = some t then none else σ.owner) = some u := ho
    by_cases hot : σ.owner = some t
    · rw [if_pos hot] at ho'; cases ho'
    · rw [if_neg hot] at ho'
      rw [show (({ σ with closing := σ.closing || cl } : Peer S).leave t true).pc u = σ.pc u from setPc_other _ _ _ _ (fun hut => hot (hut ▸ ho'))]
      exact h.holds u ho'
  · rcases h.lost with h1 | ⟨h1, h2⟩
    · exact .inl h1
    · refine .inr ⟨by simp [Peer.leave, h1], fun u ho => ?_⟩
      have ho' : (if σ.owner = some t then none else σ.owner) = some u := ho
      by_cases hot : σ.owner = some t
      · rw [if_pos hot] at ho'; cases ho'
      · rw [if_neg hot] at ho'
        rw [show (({ σ with closing := σ.closing || cl } : Peer S).leave t true).pc u = σ.pc u from setPc_other _ _ _ _ (fun hut => hot (hut ▸ ho'))]
        exact h2 u ho'

end

/-- What is always so remains so. -/
theorem step_inv (c : Sender S) {zr : Zlib R} {codec : Codec} (hs : RawDeflates c.zs codec) (hr : RawInflates zr codec) {gr : Bytes → Nat → Nat} (hg : ∀ b r, r ≤ c.grow b r) (hgr : ∀ b r, r ≤ gr b r)
    {max : Nat} {r0 : R} {σ : Peer S} {log : List Item} {r v : R} (h : Inv c hs hr gr max r0 σ log r v) (a : Act) (ha : ∀ t op data rnd, a = .send t op data rnd → data.length ≤ max) :
    ∃ n σ' ext r' v', (∀ k, n ≤ k → σ.step c k a = some σ') ∧ Inv c hs hr gr max r0 σ' (log ++ ext) r' v' := by
  have same : ∃ (n : Nat) (σ' : Peer S) (ext : List Item) (r' v' : R), (∀ k, n ≤ k → (some σ : Option (Peer S)) = some σ') ∧ Inv c hs hr gr max r0 σ' (log ++ ext) r' v' := ⟨0, σ, [], r, v, fun _ _ => rfl, by rw [List.append_nil]; exact h⟩
  cases a with
  | send t op data rnd =>
    simp only [Peer.step]
    by_cases ht : σ.pc t = .idle
    · simp only [if_pos ht]
      have hl := ha t op data rnd rfl
      unfold Peer.send
      simp only
      by_cases hz : (op = ws_TEXT ∨ op = ws_BINARY) ∧ c.pmce = true ∧ data.length ≥ (if c.noCtx = true then 1024 else 64)
      · simp only [if_pos hz]
        cases ho : σ.owner with
        | some u => simp only [Option.isSome_some, if_true]; exact same
        | none =>
          simp only [Option.isSome_none, Bool.false_eq_true, if_false]
          have hag := h.free (fun u hu => by rw [ho] at hu; cases hu)
          obtain ⟨n, x, hx, hcase⟩ := compress_ends hs hr hg hgr c.noCtx max σ.strm v hag data hl hz.2.2
          rcases hcase with ⟨h1, h2, h3⟩ | ⟨h1, v', h2, w1, e1, w2, e2, h3, h4, h5, h6, h7⟩
          · refine ⟨n, _, [], r, v, fun k hk => by rw [hx k hk], ?_⟩
            rw [List.append_nil]
            simp only [h1, Bool.false_eq_true, if_false, h2]
            have := h.composed ht (.send t op data) { thread := t, what := .message op data, random := rnd, first := 0b10000000 ||| op, payload := data } false rfl rfl
              (.message op rfl rfl (by have := hz.1; simp only [ws_TEXT, ws_BINARY] at this; omega) hl) x.strm (.inl ⟨ho, h3⟩)
            rw [← ho]
            exact this
          · refine ⟨n, _, [], r, v, fun k hk => by rw [hx k hk], ?_⟩
            rw [List.append_nil]
            simp only [h1, if_true]
            exact h.packed ht ho (.send t op data) { thread := t, what := .message op data, random := rnd, first := 0b11000000 ||| op, payload := x.payload } false rfl rfl x.strm v'
              ⟨n, fun k hk => .inr ⟨hz.2.1, ⟨op, data, hz.1, rfl, rfl, hl, w1, e1, w2, e2, h3 k hk, h4 k hk, h5, h6, h7⟩⟩⟩ h2
      · simp only [if_neg hz]
        unfold ws_send_frame
        simp only [Bool.false_eq_true, false_and, if_false]
        have go : ∀ (h3 : op = 1 ∨ op = 2 ∨ (op = 9 ∨ op = 10) ∧ data.length ≤ 125), ∃ (n : Nat) (σ' : Peer S) (ext : List Item) (r' v' : R), (∀ k, n ≤ k →
            some { σ with pc := setPc σ.pc t (.ready (raw_frame c.server rnd (0b10000000 ||| op) data) false), history := σ.history ++ [.send t op data] } = some σ') ∧ Inv c hs hr gr max r0 σ' (log ++ ext) r' v' := by
          intro h3
          refine ⟨0, _, [], r, v, fun _ _ => rfl, ?_⟩
          rw [List.append_nil]
          exact h.composed ht (.send t op data) { thread := t, what := .message op data, random := rnd, first := 0b10000000 ||| op, payload := data } false rfl rfl (.message op rfl rfl h3 hl) σ.strm (.inr rfl)
        have no : ∃ (n : Nat) (σ' : Peer S) (ext : List Item) (r' v' : R), (∀ k, n ≤ k → some (({ σ with history := σ.history ++ [.send t op data] } : Peer S).leave t false) = some σ') ∧ Inv c hs hr gr max r0 σ' (log ++ ext) r' v' :=
          ⟨0, _, [], r, v, fun _ _ => rfl, by rw [List.append_nil]; exact h.refused ht (.send t op data) (.message op data) rfl⟩
        by_cases h12 : op = ws_TEXT ∨ op = ws_BINARY
        · simp only [if_pos h12]
          exact go (by simp only [ws_TEXT, ws_BINARY] at h12; omega)
        · simp only [if_neg h12]
          by_cases h9 : op = ws_PING ∨ op = ws_PONG
          · simp only [if_pos h9]
            by_cases h125 : data.length > 125
            · simp only [if_pos h125]; exact no
            · simp only [if_neg h125]
              exact go (by simp only [ws_PING, ws_PONG] at h9; omega)
          · simp only [if_neg h9]; exact no
    · simp only [if_neg ht]; exact same
  | shutDown t st reason rnd =>
    simp only [Peer.step]
    by_cases ht : σ.pc t = .idle
    · simp only [if_pos ht]
      refine ⟨0, _, [], r, v, fun _ _ => rfl, ?_⟩
      rw [List.append_nil]
      unfold Peer.shutDown
      simp only
      split
      · exact h.refused ht (.shutDown t st reason) _ rfl
      · exact h.composed ht (.shutDown t st reason) { thread := t, what := .close (if 1000 ≤ st ∧ st ≤ 4999 then st.toNat else 1008) (reason.take 123), random := rnd, first := 0b10000000 ||| 8, payload := close_payload (if 1000 ≤ st ∧ st ≤ 4999 then st.toNat else 1008) reason } true rfl rfl
          (.close _ reason rfl rfl rfl (by split <;> omega)) σ.strm (.inr rfl)
    · simp only [if_neg ht]; exact same
  | check t =>
    simp only [Peer.step]
    cases ht : σ.pc t with
    | ready f cl =>
      simp only
      cases hc : σ.closing with
      | true =>
        obtain ⟨v', h'⟩ := h.dropped (.inl ht)
        refine ⟨0, _, [], r, v', fun _ _ => rfl, ?_⟩
        rw [List.append_nil]
        have : ({ σ with closing := true } : Peer S) = σ := by rw [← hc]
        rw [this] at h'
        exact h'
      | false =>
        refine ⟨0, _, [], r, v, fun _ _ => rfl, ?_⟩
        rw [List.append_nil, if_neg (by simp), ← hc]
        exact h.checked ht hc
    | idle => exact same
    | checked f cl => exact same
    | accepted cl => exact same
  | put t =>
    simp only [Peer.step]
    cases ht : σ.pc t with
    | checked f cl =>
      obtain ⟨x, r', v', h'⟩ := h.put ht
      exact ⟨0, _, [x], r', v', fun _ _ => rfl, h'⟩
    | idle => exact same
    | ready f cl => exact same
    | accepted cl => exact same
  | fail t =>
    simp only [Peer.step]
    cases ht : σ.pc t with
    | checked f cl =>
      obtain ⟨v', h'⟩ := h.dropped (.inr ht)
      exact ⟨0, _, [], r, v', fun _ _ => rfl, by rw [List.append_nil]; exact h'⟩
    | idle => exact same
    | ready f cl => exact same
    | accepted cl => exact same
  | ret t =>
    simp only [Peer.step]
    cases ht : σ.pc t with
    | accepted cl => exact ⟨0, _, [], r, v, fun _ _ => rfl, by rw [List.append_nil]; exact h.returned ht⟩
    | idle => exact same
    | ready f cl => exact same
    | checked f cl => exact same
  | closing =>
    refine ⟨0, _, [], r, v, fun _ _ => rfl, ?_⟩
    rw [List.append_nil]
    refine ⟨h.wire, h.chain, fun t => (h.threads t).frame rfl rfl rfl rfl Iff.rfl (fun _ _ hy => hy), h.free, h.holds, ?_⟩
    rcases h.lost with h1 | ⟨_, h2⟩
    · exact .inl h1
    · exact .inr ⟨rfl, h2⟩

theorem run_inv (c : Sender S) {zr : Zlib R} {codec : Codec} (hs : RawDeflates c.zs codec) (hr : RawInflates zr codec) {gr : Bytes → Nat → Nat} (hg : ∀ b r, r ≤ c.grow b r) (hgr : ∀ b r, r ≤ gr b r)
    {max : Nat} {r0 : R} (acts : List Act) : ∀ {σ : Peer S} {log : List Item} {r v : R}, Inv c hs hr gr max r0 σ log r v → (∀ t op data rnd, .send t op data rnd ∈ acts → data.length ≤ max) →
    ∃ n σ' ext r' v', (∀ k, n ≤ k → σ.run c k acts = some σ') ∧ Inv c hs hr gr max r0 σ' (log ++ ext) r' v' := by
  induction acts with
  | nil => intro σ log r v h _; exact ⟨0, σ, [], r, v, fun _ _ => rfl, by rw [List.append_nil]; exact h⟩
  | cons a as ih =>
    intro σ log r v h hl
    obtain ⟨n1, σ1, e1, r1, v1, h1, i1⟩ := step_inv c hs hr hg hgr h a (fun t op data rnd he => hl t op data rnd (by simp [he]))
    obtain ⟨n2, σ2, e2, r2, v2, h2, i2⟩ := ih i1 (fun t op data rnd he => hl t op data rnd (by simp [he]))
    refine ⟨Max.max n1 n2, σ2, e1 ++ e2, r2, v2, fun k hk => ?_, by rw [← List.append_assoc]; exact i2⟩
    simp only [Peer.run]
    rw [h1 k (by omega)]
    exact h2 k (by omega)

theorem run_append (c : Sender S) (n : Nat) (a b : List Act) : ∀ σ : Peer S, σ.run c n (a ++ b) = (σ.run c n a).bind fun σ => σ.run c n b := by
  induction a with
  | nil => intro σ; rfl
  | cons x a ih =>
    intro σ
    simp only [List.cons_append, Peer.run]
    cases σ.step c n x with
    | none => rfl
    | some σ1 => exact ih σ1

/-- What is on the wire, in the order of calls. -/
theorem Inv.interleaves {c : Sender S} {zr : Zlib R} {codec : Codec} {hs : RawDeflates c.zs codec} {hr : RawInflates zr codec} {gr : Bytes → Nat → Nat} {max : Nat} {r0 : R} {σ : Peer S} {log : List Item} {r v : R}
    (h : Inv c hs hr gr max r0 σ log r v) : Interleaves σ.history (log.map fun x => (x.thread, x.what)) := by
  intro t
  have hown : ((log.map fun x => (x.thread, x.what)).filter (·.1 = t)).map (·.2) = own log t := by
    unfold own
    rw [List.filter_map, List.map_map]
    rfl
  rw [hown]
  have hT := h.threads t
  unfold Thread at hT
  split at hT
  · exact .inl hT.2
  · obtain ⟨x, hx⟩ := hT; exact .inl hx.accepted
  · obtain ⟨x, hx⟩ := hT; exact .inl hx.accepted
  · exact .inr hT

end Verif.WsPeers
