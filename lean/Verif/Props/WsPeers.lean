import Verif.Proofs.WsPeers
import Verif.Proofs.ZlibToy
/-!
# C107: what threads send through a WebSocket connection, the other end receives

zlib is not part of the repository.  Theorems are about any pair of compressor and decompressor for which what zlib.h says is true (`Verif/Spec/Zlib.lean`).
-/
namespace Verif.Props
open Verif.Ws Verif.Zlib Verif.Spec Verif.Spec.WsPeers Verif.WsPeers

/-- C107.  Any number of threads call `ws_send()` and `ws_shut_down()` in any order, and are interrupted anywhere; each message may or may not be compressed, with or without context takeover.  The
socket may be closed, or break, at any time.  After any part `a` of such a history, what is on the wire is `all`, made of the calls that have been accepted; after `a` and `b` it is `all` and
`more`, so calls that begin after another one has returned are behind it.  In whatever way the first frames on the wire are divided into reads, the other end is told of exactly those
messages, each as it was sent, and of the first close, and of nothing behind that one.

What is missing: reads that end inside a frame (violated, see `C15_violated_payload`), and messages that become longer than the limit of the receiver when they are compressed (violated, see
`C107_violated_limit`). -/
theorem C107_received_partial (c : Sender S) {zr : Zlib R} {codec : Codec} (hs : RawDeflates c.zs codec) (hr : RawInflates zr codec) (gr : Bytes → Nat → Nat) (hg : ∀ b r, r ≤ c.grow b r) (hgr : ∀ b r, r ≤ gr b r)
    (s0 : S) (r0 : R) (h0 : hs.inp s0 = [] ∧ hs.out s0 = [] ∧ hr.inp r0 = [] ∧ hr.out r0 = []) (max : Nat) (hmax : 125 ≤ max ∧ max < 2 ^ 64)
    (env : Env R) (hq : Quiet env max) (s : Session R) (hf : Fits c max r0 s)
    (a b : List Act) (hl : ∀ t op data rnd, .send t op data rnd ∈ a ++ b → data.length ≤ max) :
    ∃ n σ τ all more, (∀ k, n ≤ k → Peer.run c k { strm := s0 } a = some σ ∧ Peer.run c k { strm := s0 } (a ++ b) = some τ) ∧
      Interleaves σ.history all ∧ Interleaves τ.history (all ++ more) ∧ σ.wire.length = all.length ∧ τ.wire.length = (all ++ more).length ∧ σ.wire <+: τ.wire ∧
      ((∀ f ∈ τ.wire, compressed f = true → f.length ≤ max + 2) →
        ∀ reads : List (Nat × List Bytes), (reads.map (·.2)).flatten <+: τ.wire →
          ∀ k, n ≤ k → delivered ((reads.map fun q => Input.stream q.1 q.2.flatten).foldl (Session.input (withInflator env zr gr max k)) s).trace =
            delivered s.trace ++ untilClose (((all ++ more).map (·.2)).take (reads.map (·.2)).flatten.length)) := by
  have hag : Agree hs hr s0 r0 := by
    refine ⟨?_, ?_, Or.inl h0.2.1, ⟨[], codec.nil.1, ?_⟩, ?_⟩
    · rw [h0.2.1]; exact codec.nil.1
    · rw [h0.2.1, h0.1]; exact codec.nil.2
    · rw [h0.2.1, h0.2.2.1]; rfl
    · rw [h0.2.2.1, h0.2.2.2]; exact codec.nil.2.symm
  have hinv : Inv c hs hr gr max r0 ({ strm := s0 } : Peer S) [] r0 r0 :=
    ⟨rfl, ⟨0, fun _ _ => rfl⟩, fun t => ⟨rfl, rfl⟩, fun _ => hag, (fun _ h => by cases h), .inl rfl⟩
  obtain ⟨n1, σ, e1, r1, v1, h1, i1⟩ := run_inv c hs hr hg hgr a hinv (fun t op data rnd h => hl t op data rnd (by simp [h]))
  obtain ⟨n2, τ, e2, r2, v2, h2, i2⟩ := run_inv c hs hr hg hgr b i1 (fun t op data rnd h => hl t op data rnd (by simp [h]))
  simp only [List.nil_append] at i1 i2
  obtain ⟨n3, h3⟩ := i2.chain
  refine ⟨Max.max n1 (Max.max n2 n3), σ, τ, e1.map fun x => (x.thread, x.what), e2.map fun x => (x.thread, x.what), fun k hk => ⟨h1 k (by omega), ?_⟩, i1.interleaves, ?_, ?_, ?_, ?_, ?_⟩
  · rw [run_append, h1 k (by omega)]; exact h2 k (by omega)
  · rw [← List.map_append]; exact i2.interleaves
  · rw [i1.wire]; simp
  · rw [i2.wire]; simp
  · rw [i1.wire, i2.wire, List.map_append]; exact List.prefix_append _ _
  · intro hlim reads hreads k hk
    obtain ⟨rest, hrest⟩ := hreads
    rw [i2.wire] at hrest
    obtain ⟨xs, ys, hxy, hx, hy⟩ := List.map_eq_append_iff.1 hrest.symm
    have hch := h3 k (by omega)
    rw [hxy] at hch
    obtain ⟨m, hm, _⟩ := hch.split
    have hmem : ∀ x ∈ xs, compressed (x.bytes c.server) = true → (x.bytes c.server).length ≤ max + 2 := by
      intro x hx' hc
      exact hlim _ (by rw [i2.wire, hxy]; exact List.mem_map.2 ⟨x, by simp [hx'], rfl⟩) hc
    rw [reads_items c env zr gr max k hmax hq reads s r0 m false xs hf hm hx.symm hmem]
    have : ((e1.map fun x => (x.thread, x.what)) ++ (e2.map fun x => (x.thread, x.what))).map (·.2) = (xs ++ ys).map (·.what) := by
      rw [← List.map_append, hxy, List.map_map]; rfl
    rw [this, List.map_append, ← hx, List.take_left' (by simp)]
    rfl

namespace WsPeers

/-- A client whose compressor is a simple one, and the server. -/
def demoSender : Sender Toy.D := { server := false, pmce := true, noCtx := false, zs := Toy.deflator, grow := fun _ r => r }
def demoEnv : Env Toy.I :=
  { server := true, random := fun _ => 0, closing := fun _ => false, send_throws := fun _ => false, on_data := fun _ _ b => if b.length > 200 then none else some b, on_finish := fun _ _ b => some b
    on_close := fun _ _ _ => false, on_accepted := fun _ => false, inflate_stream := fun z _ => (z, [], true), inflate_finish := fun z => (z, [], true) }
def demoSession : Session Toy.I := { upgraded := true, parser := { freshServer with pmce_send_window_bits := 15, max_message_length := 200 }, pmce := some (Toy.iInit, []) }

/-- Thread 1 sends a long message; thread 2 wants to do so, and has to wait; thread 3 sends a short one in between; thread 2 closes the connection, and what thread 1 sends then is not read. -/
def demoActs : List Act :=
  [.send 1 1 (List.replicate 70 65) 7, .send 2 2 (List.replicate 80 66) 8, .send 3 1 (b! "hello") 9, .check 3, .put 3, .check 1, .put 1, .ret 3, .ret 1,
   .send 2 2 (List.replicate 80 66) 8, .send 1 9 (b! "ping") 3, .check 1, .check 2, .put 2, .ret 2, .shutDown 2 4000 (b! "bye") 4, .check 2, .put 2, .put 1, .ret 2, .ret 1]

def demoWire : List Bytes := ((Peer.run demoSender 200 { strm := Toy.dInit } demoActs).map (·.wire)).getD []

end WsPeers

example : (Toy.deflates.inp Toy.dInit = [] ∧ Toy.deflates.out Toy.dInit = [] ∧ Toy.inflates.inp Toy.iInit = [] ∧ Toy.inflates.out Toy.iInit = []) ∧ Quiet WsPeers.demoEnv 200 ∧
    Fits WsPeers.demoSender 200 Toy.iInit WsPeers.demoSession :=
  ⟨⟨rfl, rfl, rfl, rfl⟩, ⟨fun _ _ _ => rfl, fun _ _ _ => by simp [WsPeers.demoEnv], fun _ => rfl, fun _ _ _ => rfl⟩,
    ⟨⟨rfl, rfl, rfl, by decide, fun _ => ⟨rfl, rfl, rfl, rfl⟩⟩, rfl, rfl, rfl, rfl, rfl, fun _ => rfl⟩⟩

example : WsPeers.demoWire.length = 5 ∧ (∀ f ∈ WsPeers.demoWire, compressed f = true → f.length ≤ 200 + 2) ∧ (WsPeers.demoWire.map compressed) = [false, true, true, false, false] ∧
    delivered ((([(0, WsPeers.demoWire.take 2), (1, WsPeers.demoWire.drop 2)] : List (Nat × List Bytes)).map fun q => Input.stream q.1 q.2.flatten).foldl
      (Session.input (withInflator WsPeers.demoEnv Toy.inflator (fun _ r => r) 200 500)) WsPeers.demoSession).trace =
      [.message 1 (b! "hello"), .message 1 (List.replicate 70 65), .message 2 (List.replicate 80 66), .close 4000 (b! "bye")] := by decide +kernel

/-- C107, violation: a message that is not longer than the limit of the receiver becomes longer when it is compressed; the receiver throws an exception instead of delivering it. -/
theorem C107_violated_limit :
    let data := List.replicate 150 65
    data.length ≤ WsPeers.demoSession.parser.max_message_length ∧
    ((Peer.run WsPeers.demoSender 500 { strm := Toy.dInit } [.send 1 1 data 7, .check 1, .put 1, .ret 1]).map fun σ => (σ.history,
      (let (t, _, threw) := WsPeers.demoSession.stream (withInflator WsPeers.demoEnv Toy.inflator (fun _ r => r) 200 500) 0 σ.wire.flatten; (delivered t.trace, threw)))) =
      some ([.send 1 1 data, .returned 1 true], [], some true) := by
  decide +kernel

end Verif.Props
