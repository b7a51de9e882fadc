import Verif.Base.Bytes
/-!
# Specification of WebSocket frames (RFC 6455, sections 5.2-5.5)
-/
namespace Verif.Spec

/-- The bits of a number, most significant first. -/
def natBits (width n : Nat) : List Bool := (List.range width).map (fun i => n.testBit (width - 1 - i))

/-- The bits of a byte string in transmission order. -/
def wireBits (bs : Bytes) : List Bool := bs.flatMap (fun b => natBits 8 b.toNat)

/-- A frame header as in RFC 6455: `key` is present iff the frame is masked. -/
structure WsFrame where
  fin : Bool
  rsv1 : Bool
  rsv2 : Bool
  rsv3 : Bool
  opcode : Nat
  key : Option Nat
  len : Nat
deriving Repr, DecidableEq

/-- The numbers fit the fields of the wire format. -/
structure WsFrame.Fits (f : WsFrame) : Prop where
  opcode : f.opcode < 16
  key : ∀ k, f.key = some k → k < 2 ^ 32
  len : f.len < 2 ^ 64

/-- The header in transmission order: FIN, RSV1-3, opcode, MASK, 7-bit length, extended length (shortest form), key.
(RFC 6455 5.2) -/
def WsFrame.bits (f : WsFrame) : List Bool :=
  [f.fin, f.rsv1, f.rsv2, f.rsv3] ++ natBits 4 f.opcode ++ [f.key.isSome]
  ++ (if f.len ≤ 125 then natBits 7 f.len
      else if f.len ≤ 65535 then natBits 7 126 ++ natBits 16 f.len
      else natBits 7 127 ++ natBits 64 f.len)
  ++ (match f.key with | some k => natBits 32 k | none => [])

/-- Is the frame legal?  `server`: it is received by a server; `pmce`: RSV1 has been given a meaning by
permessage-deflate; `inMessage`: a fragmented message is unfinished.  (RFC 6455 5.1, 5.2, 5.4, 5.5) -/
def WsFrame.Legal (server pmce inMessage : Bool) (f : WsFrame) : Prop :=
  (server = true → f.key ≠ none) ∧
  (-- first frame of a data message
   (f.opcode = 1 ∨ f.opcode = 2) ∧ inMessage = false ∧ (f.rsv1 = true → pmce = true) ∧ f.rsv2 = false ∧ f.rsv3 = false ∨
   -- continuation
   f.opcode = 0 ∧ inMessage = true ∧ f.rsv1 = false ∧ f.rsv2 = false ∧ f.rsv3 = false ∨
   -- control frame
   (f.opcode = 8 ∨ f.opcode = 9 ∨ f.opcode = 10) ∧ f.fin = true ∧ f.len ≤ 125 ∧
     f.rsv1 = false ∧ f.rsv2 = false ∧ f.rsv3 = false)

/-- Is a message unfinished after a frame?  Control frames do not matter. -/
def WsFrame.after (inMessage : Bool) (f : WsFrame) : Bool := if f.opcode ≥ 8 then inMessage else !f.fin

/-- A legal sequence of frames. -/
def LegalSequence (server pmce : Bool) : (inMessage : Bool) → List WsFrame → Prop
  | _, [] => True
  | inMessage, f :: fs => f.Legal server pmce inMessage ∧ LegalSequence server pmce (f.after inMessage) fs

/-- The first byte of a frame that starts a fragmented message, or of one that ends one. -/
def StartsOrEndsFragmented (b0 : Byte) : Prop :=
  (b0.toNat % 16 = 1 ∨ b0.toNat % 16 = 2) ∧ b0.toNat < 128 ∨ b0.toNat % 16 = 0 ∧ 128 ≤ b0.toNat

instance (server pmce inMessage : Bool) (f : WsFrame) : Decidable (f.Legal server pmce inMessage) := by
  unfold WsFrame.Legal; infer_instance

instance decLegalSequence (server pmce : Bool) : (inMessage : Bool) → (fs : List WsFrame) → Decidable (LegalSequence server pmce inMessage fs)
  | _, [] => .isTrue trivial
  | inMessage, f :: fs =>
    have := decLegalSequence server pmce (f.after inMessage) fs
    inferInstanceAs (Decidable (f.Legal server pmce inMessage ∧ LegalSequence server pmce (f.after inMessage) fs))

/-- Octet `j` (0 to 3) of a masking key in network order. -/
def keyOctet (key j : Nat) : Byte := UInt8.ofNat (key / 256 ^ (3 - j))

/-- The payload as transmitted: octet `i` is XORed with octet `i mod 4` of the key.  (RFC 6455 5.3) -/
def masking (key : Nat) (data : Bytes) : Bytes := data.mapIdx (fun i b => b ^^^ keyOctet key (i % 4))

def WsFrame.transform (f : WsFrame) (data : Bytes) : Bytes :=
  match f.key with | some k => masking k data | none => data

end Verif.Spec
