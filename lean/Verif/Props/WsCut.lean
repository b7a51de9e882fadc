import Verif.Proofs.WsCut
import Verif.Props.WsMixed
/-!
# C15: reads that end inside a frame
-/
namespace Verif.Props
open Verif Verif.Spec Verif.Ws

/-- C15, for reads that end anywhere but where bytes get lost: a read may end after a frame, after the header of any frame that is not compressed, and inside the payload of a continuation or a control frame.  If every compressed message is one frame,
then every message is delivered once, in order: one that is not compressed as the concatenation of the payloads of its frames, whatever control frames are in between, and a compressed one as what its payload is decompressed to; and a CLOSE frame is
reported with its status and reason.  Not covered: a read that ends inside the payload of the first frame of a message (violated, see `C15_violated_payload`), or inside a header (violated, see `C15_violated_header`), and compressed messages in more
than one frame (violated, see `C15_violated_compressed`). -/
theorem C15_cut_partial {Z : Type} (env : Env Z) (s : Session Z) (max : Nat) (hq : Quiet env max) (hs : Waiting s.parser)
    (ho : s.closure_notified = false) (hi : inMessage s.parser = false) (hm : s.parser.max_message_length = max)
    (z : Z) (hz : hasPmce s.parser = true → s.pmce.map Prod.fst = some z)
    (frames : List Sent) (hr : Readable max (unpackMessage env.inflate_stream env.inflate_finish) z frames)
    (hl : LegalSequence (isServer s.parser) (hasPmce s.parser) false (frames.map Sent.frame)) (hw : WithinLimit max .idle (frames.map Sent.meant))
    (reads : List (Nat × Bytes)) (hall : (reads.map Prod.snd).flatten = wire (frames.map Sent.raw)) (hc : ∀ n, MayEnd (frames.map Sent.raw) ((reads.take n).map Prod.snd).flatten) :
    delivered ((reads.map (fun r => Input.stream r.1 r.2)).foldl (Session.input env) s).trace = delivered s.trace ++ (assemble .idle (frames.map Sent.meant)).2 :=
  (pieces_run env max hq (pieces_of reads [] frames [] rfl (.inl rfl) (by simpa [wire] using hall) (by simpa [wire] using hc)) s .idle
    (.on s z (by simp) ⟨hs, ho, hi⟩ hm (by rw [hi]; exact hl) hz hr rfl (fun _ _ => rfl)) hw).1

/-- A compressed message, then one in two frames with a PING in between. -/
def cutFrames : List Sent :=
  [⟨⟨true, true, false, false, 1, some 1, 2⟩, [72, 105], b! "Hi!"⟩, ⟨⟨false, false, false, false, 1, some 1, 2⟩, [72, 101], [72, 101]⟩, ⟨⟨true, false, false, false, 9, some 2, 2⟩, [33, 34], [33, 34]⟩,
   ⟨⟨true, false, false, false, 0, some 4, 2⟩, [108, 111], [108, 111]⟩]

/-- They are read in four pieces, which end after the header of the second frame, inside the payload of the PING, and inside the payload of the last frame. -/
def cutReads : List (Nat × Bytes) :=
  let w := wire (cutFrames.map Sent.raw)
  [(0, w.take 14), (3, (w.drop 14).take 9), (0, (w.drop 23).take 8), (1, w.drop 31)]

/-- They meet the hypotheses. -/
theorem cut_case : Quiet countEnv 0x100000 ∧ Readable 0x100000 (unpackMessage countEnv.inflate_stream countEnv.inflate_finish) 0 cutFrames ∧ LegalSequence true true false (cutFrames.map Sent.frame) ∧
    WithinLimit 0x100000 .idle (cutFrames.map Sent.meant) ∧
    (cutReads.map Prod.snd).flatten = wire (cutFrames.map Sent.raw) ∧ (∀ n, MayEnd (cutFrames.map Sent.raw) ((cutReads.take n).map Prod.snd).flatten) ∧
    (assemble .idle (cutFrames.map Sent.meant)).2 = [.message 1 (b! "Hi!"), .message 9 [33, 34], .message 1 [72, 101, 108, 111]] := by
  refine ⟨⟨fun _ _ _ => rfl, by simp [countEnv], fun _ => rfl, fun _ _ _ => rfl⟩, ?_, by decide, by decide +kernel, by decide +kernel, ?_, by decide +kernel⟩
  · have fits : ∀ x ∈ cutFrames, x.frame.opcode < 16 ∧ (∀ k, x.frame.key = some k → k < 2 ^ 32) ∧ x.frame.len < 2 ^ 64 := by decide
    have hf : ∀ x ∈ cutFrames, x.frame.Fits := fun x hx => ⟨(fits x hx).1, (fits x hx).2.1, (fits x hx).2.2⟩
    simp only [cutFrames, List.mem_cons, List.not_mem_nil, or_false, forall_eq_or_imp, forall_eq] at hf ⊢
    obtain ⟨f1, f2, f3, f4⟩ := hf
    exact ⟨f1, rfl, by decide, rfl, by decide, 1, by rfl, f2, rfl, by decide, rfl, f3, rfl, by decide, rfl, f4, rfl, by decide, rfl, trivial⟩
  · intro n
    match n with
    | 0 => exact ⟨[], cutFrames.map Sent.raw, [], rfl, by decide +kernel, .inl rfl⟩
    | 1 => exact ⟨(cutFrames.take 1).map Sent.raw, (cutFrames.drop 1).map Sent.raw, ((wire (cutFrames.map Sent.raw)).drop 8).take 6, rfl, by decide +kernel, .inr ⟨_, _, rfl, 0, by decide, by decide +kernel, fun _ => ⟨rfl, rfl⟩⟩⟩
    | 2 => exact ⟨(cutFrames.take 2).map Sent.raw, (cutFrames.drop 2).map Sent.raw, ((wire (cutFrames.map Sent.raw)).drop 16).take 7, rfl, by decide +kernel, .inr ⟨_, _, rfl, 1, by decide, by decide +kernel, by decide⟩⟩
    | 3 => exact ⟨(cutFrames.take 3).map Sent.raw, (cutFrames.drop 3).map Sent.raw, ((wire (cutFrames.map Sent.raw)).drop 24).take 7, rfl, by decide +kernel, .inr ⟨_, _, rfl, 1, by decide, by decide +kernel, by decide⟩⟩
    | n + 4 =>
      refine ⟨cutFrames.map Sent.raw, [], [], by simp, ?_, .inl rfl⟩
      rw [List.take_of_length_le (by simp [cutReads])]
      decide +kernel

-- `cut_case` shows that the hypotheses of `C15_cut_partial` are met
example := cut_case

end Verif.Props
