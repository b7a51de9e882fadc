import Verif.Proofs.WsMixed
/-!
# C15 with compression
-/
namespace Verif.Props
open Verif.Ws Verif.Spec

/-- C15 (part): when every read consists of whole frames, and every compressed message is one frame, then every message is delivered once, in order: one that is not compressed as the concatenation of the payloads of its frames, whatever control
frames are in between, and a compressed one as what its payload is decompressed to; and a CLOSE frame is reported with its status and reason.  Not covered: a read that ends inside a frame (violated, see `C15_violated_payload`,
`C15_violated_header`), and compressed messages in more than one frame (violated, see `C15_violated_compressed`). -/
theorem C15_mixed_partial {Z : Type} (env : Env Z) (s : Session Z) (max : Nat) (hq : Quiet env max) (hs : Waiting s.parser) (ho : s.closure_notified = false) (hi : inMessage s.parser = false)
    (hm : s.parser.max_message_length = max) (z : Z) (hz : hasPmce s.parser = true → s.pmce.map Prod.fst = some z) (reads : List (Nat × List Sent))
    (hr : Readable max (unpackMessage env.inflate_stream env.inflate_finish) z (reads.map Prod.snd).flatten)
    (hl : LegalSequence (isServer s.parser) (hasPmce s.parser) false ((reads.map Prod.snd).flatten.map Sent.frame)) (hw : WithinLimit max .idle ((reads.map Prod.snd).flatten.map Sent.meant)) :
    delivered ((reads.map (fun r => Input.stream r.1 (wire (r.2.map Sent.raw)))).foldl (Session.input env) s).trace
      = delivered s.trace ++ (assemble .idle ((reads.map Prod.snd).flatten.map Sent.meant)).2 := by
  have gen : ∀ (reads : List (Nat × List Sent)) (s : Session Z) (st : MsgState) (z : Z), Agrees s st → (st ≠ .closed → s.parser.max_message_length = max) → (st ≠ .closed → Holds s z) →
      Readable max (unpackMessage env.inflate_stream env.inflate_finish) z (reads.map Prod.snd).flatten →
      (st ≠ .closed → LegalSequence (isServer s.parser) (hasPmce s.parser) (inMessage s.parser) ((reads.map Prod.snd).flatten.map Sent.frame)) →
      WithinLimit max st ((reads.map Prod.snd).flatten.map Sent.meant) →
      delivered ((reads.map (fun r => Input.stream r.1 (wire (r.2.map Sent.raw)))).foldl (Session.input env) s).trace
        = delivered s.trace ++ (assemble st ((reads.map Prod.snd).flatten.map Sent.meant)).2 := by
    intro reads
    induction reads with
    | nil => intro s st z _ _ _ _ _ _; simp [assemble]
    | cons r rs ih =>
      intro s st z ha hm hz hp hl hw
      simp only [List.map_cons, List.flatten_cons] at hp hl hw ⊢
      rw [List.map_append, within_append] at hw
      have hl2 : st ≠ .closed → LegalSequence (isServer s.parser) (hasPmce s.parser) (inMessage s.parser) (r.2.map Sent.frame) ∧
          LegalSequence (isServer s.parser) (hasPmce s.parser) ((r.2.map Sent.frame).foldl WsFrame.after (inMessage s.parser)) ((rs.map Prod.snd).flatten.map Sent.frame) := by
        intro h; have := hl h; rw [List.map_append, legal_append] at this; exact this
      obtain ⟨t, z', t1, t2, t3, tr, t4⟩ := sent_read env max hq r.1 r.2 _ s st z ha hm hz hp (fun h => (hl2 h).1) hw.1
      have hcl : (assemble st (r.2.map Sent.meant)).1 ≠ .closed → st ≠ .closed := fun h hc => h (by rw [hc, assemble_shut])
      have hin : s.input env (.stream r.1 (wire (r.2.map Sent.raw))) = t := by show (s.stream env r.1 _).1 = t; rw [t1]
      rw [List.foldl_cons, hin, ih t (assemble st (r.2.map Sent.meant)).1 z' t2 (fun h => (t4 h).1) (fun h => (t4 h).2.1) tr ?_ hw.2]
      · rw [t3, List.map_append, assemble_append]; simp
      · intro h
        obtain ⟨v1, -, v2, v3, v4⟩ := t4 h
        rw [v2, v3, v4]
        exact (hl2 (hcl h)).2
  exact gen reads s .idle z ⟨hs, ho, hi⟩ (fun _ => hm) (fun _ => hz) hr (fun _ => by rw [hi]; exact hl) hw

/-- A "decompressor" whose state is the number of messages so far, which it adds to every byte; the block at the end is an exclamation mark. -/
def countEnv : Env Nat where
  server := true
  random _ := 0
  inflate_stream z b := (z, b.map (· + UInt8.ofNat z), false)
  inflate_finish z := (z + 1, b! "!", false)
  on_accepted _ := false
  on_data _ _ b := if b.length > 0x100000 then none else some b
  on_finish _ _ _ := some []
  on_close _ _ _ := false
  closing _ := false
  send_throws _ := false

/-- Two compressed messages, between them a message in two frames with a PING inside, then a CLOSE frame; in two reads. -/
def mixedReads : List (Nat × List Sent) :=
  [(0, [⟨⟨true, true, false, false, 1, some 1, 2⟩, [72, 105], b! "Hi!"⟩, ⟨⟨false, false, false, false, 2, some 1, 1⟩, [1], [1]⟩, ⟨⟨true, false, false, false, 9, some 2, 0⟩, [], []⟩]),
   (5, [⟨⟨true, false, false, false, 0, some 4, 2⟩, [2, 3], [2, 3]⟩, ⟨⟨true, true, false, false, 1, some 1, 2⟩, [71, 110], b! "Ho!"⟩, ⟨⟨true, true, false, false, 1, some 1, 0⟩, [], b! "!"⟩,
        ⟨⟨true, false, false, false, 8, some 5, 3⟩, [3, 0xE8, 65], [3, 0xE8, 65]⟩])]

theorem mixed_readable : Readable 0x100000 (unpackMessage countEnv.inflate_stream countEnv.inflate_finish) 0 (mixedReads.map Prod.snd).flatten := by
  have fits : ∀ x ∈ (mixedReads.map Prod.snd).flatten, x.frame.opcode < 16 ∧ (∀ k, x.frame.key = some k → k < 2 ^ 32) ∧ x.frame.len < 2 ^ 64 := by decide
  have hf : ∀ x ∈ (mixedReads.map Prod.snd).flatten, x.frame.Fits := fun x hx => ⟨(fits x hx).1, (fits x hx).2.1, (fits x hx).2.2⟩
  simp only [mixedReads, List.map_cons, List.map_nil, List.flatten_cons, List.flatten_nil, List.append_nil, List.cons_append, List.nil_append, List.mem_cons, List.not_mem_nil, or_false, forall_eq_or_imp,
    forall_eq] at hf ⊢
  obtain ⟨f1, f2, f3, f4, f5, f6, f7⟩ := hf
  refine ⟨f1, rfl, by decide, rfl, by decide, 1, by rfl, f2, rfl, by decide, rfl, f3, rfl, by decide, rfl, f4, rfl, by decide, rfl, f5, rfl, by decide, rfl, by decide, 2, by rfl, f6, rfl, by decide, rfl, by decide, 3, by rfl,
    f7, rfl, by decide, rfl, trivial⟩

example : Quiet countEnv 0x100000 ∧ (let s : Session Nat := { parser := { freshServer with pmce_send_window_bits := 15 }, pmce := some (0, []) }
    s.pmce.map Prod.fst = some 0 ∧ LegalSequence true (hasPmce s.parser) false ((mixedReads.map Prod.snd).flatten.map Sent.frame)) ∧ WithinLimit 0x100000 .idle ((mixedReads.map Prod.snd).flatten.map Sent.meant) ∧
    (assemble .idle ((mixedReads.map Prod.snd).flatten.map Sent.meant)).2 = [.message 1 (b! "Hi!"), .message 9 [], .message 2 [1, 2, 3], .message 1 (b! "Ho!"), .message 1 (b! "!"), .close 1000 (b! "A")] :=
  ⟨⟨fun _ _ _ => rfl, by simp [countEnv], fun _ => rfl, fun _ _ _ => rfl⟩, ⟨rfl, by decide⟩, by decide +kernel, by decide +kernel⟩

end Verif.Props
