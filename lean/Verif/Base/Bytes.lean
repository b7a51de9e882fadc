/-!
# Shared vocabulary: bytes, byte strings, big-endian numbers

`chars_view`, `cow_string` and `linear_buffer` of the (absent) rocket library are modelled as `Bytes`, i.e. plain
lists of bytes, front first.
-/
namespace Verif

abbrev Byte := UInt8
abbrev Bytes := List UInt8

/-- Byte of an ASCII character literal. -/
def chr (c : Char) : Byte := UInt8.ofNat c.toNat

/-- Bytes of a list of ASCII characters. -/
def chrs (cs : List Char) : Bytes := cs.map chr

/-- Big-endian bytes of `n`, `len` of them (`::asteria::store_be<T>` with `len = sizeof(T)`). -/
def beBytes : (len : Nat) → (n : Nat) → Bytes
  | 0, _ => []
  | k + 1, n => beBytes k (n / 256) ++ [UInt8.ofNat (n % 256)]

/-- The number whose big-endian bytes are given (`::asteria::load_be<T>`). -/
def beNat (bs : Bytes) : Nat := bs.foldl (fun a b => a * 256 + b.toNat) 0

@[simp] theorem beBytes_length (len n : Nat) : (beBytes len n).length = len := by
  induction len generalizing n with
  | zero => rfl
  | succ k ih => simp [beBytes, ih]

theorem beNat_append_single (bs : Bytes) (b : Byte) : beNat (bs ++ [b]) = beNat bs * 256 + b.toNat := by
  simp [beNat, List.foldl_append]

theorem foldl_be (bs : Bytes) (a : Nat) :
    bs.foldl (fun a b => a * 256 + b.toNat) a = a * 256 ^ bs.length + beNat bs := by
  unfold beNat
  induction bs generalizing a with
  | nil => simp
  | cons b t ih =>
    simp only [List.foldl_cons, List.length_cons]
    rw [ih, ih (0 * 256 + b.toNat)]
    simp only [Nat.pow_succ, Nat.zero_mul, Nat.zero_add, Nat.add_mul]
    rw [Nat.mul_assoc, Nat.mul_comm 256, Nat.add_assoc]

theorem beNat_append (xs ys : Bytes) : beNat (xs ++ ys) = beNat xs * 256 ^ ys.length + beNat ys := by
  rw [show beNat (xs ++ ys) = ys.foldl (fun a b => a * 256 + b.toNat) (beNat xs) by
    simp [beNat, List.foldl_append]]
  exact foldl_be ys _

@[simp] theorem beNat_nil : beNat [] = 0 := rfl

theorem beNat_cons (b : Byte) (t : Bytes) : beNat (b :: t) = b.toNat * 256 ^ t.length + beNat t := by
  have := beNat_append [b] t
  simpa [beNat] using this

theorem beNat_lt (bs : Bytes) : beNat bs < 256 ^ bs.length := by
  induction bs with
  | nil => simp
  | cons b t ih =>
    rw [beNat_cons, List.length_cons, Nat.pow_succ]
    have hb : b.toNat ≤ 255 := Nat.le_of_lt_succ (UInt8.toNat_lt b)
    have h1 : b.toNat * 256 ^ t.length ≤ 255 * 256 ^ t.length := Nat.mul_le_mul_right _ hb
    omega

@[simp] theorem beNat_beBytes (len n : Nat) : beNat (beBytes len n) = n % 256 ^ len := by
  induction len generalizing n with
  | zero => simp [beBytes, Nat.mod_one]
  | succ k ih =>
    simp only [beBytes, beNat_append_single, ih]
    have hlt : n % 256 < 256 := Nat.mod_lt _ (by decide)
    have : (UInt8.ofNat (n % 256)).toNat = n % 256 := by
      simp
    rw [this, Nat.pow_succ, Nat.mul_comm (256 ^ k) 256, Nat.mod_mul]
    omega

theorem beBytes_beNat (bs : Bytes) : beBytes bs.length (beNat bs) = bs := by
  generalize hn : bs.length = n
  induction n generalizing bs with
  | zero => simp [List.length_eq_zero_iff.mp hn, beBytes]
  | succ k ih =>
    have hne : bs ≠ [] := by intro h; simp [h] at hn
    obtain ⟨init, last, rfl⟩ : ∃ i l, bs = i ++ [l] := ⟨bs.dropLast, bs.getLast hne, (List.dropLast_concat_getLast hne).symm⟩
    have hl : init.length = k := by simpa using hn
    simp only [beBytes, beNat_append_single]
    have hb : last.toNat < 256 := UInt8.toNat_lt last
    have h1 : (beNat init * 256 + last.toNat) / 256 = beNat init := by omega
    have h2 : (beNat init * 256 + last.toNat) % 256 = last.toNat := by omega
    rw [h1, h2, ih init hl]
    simp

/-- A statement about all bytes follows from checking the 256 byte values. -/
theorem forall_byte {P : Byte → Prop} (h : ∀ n : Fin 256, P (UInt8.ofNat n.val)) : ∀ b, P b := by
  intro b
  have := h ⟨b.toNat, UInt8.toNat_lt b⟩
  simpa using this

/-- `b! "text"` is the list of the (UTF-8) bytes of a string literal, expanded while parsing. -/
macro "b!" s:str : term => do
  let elems := s.getString.toUTF8.toList.map (fun b => Lean.Syntax.mkNumLit (toString b.toNat)) |>.toArray
  `(([$elems,*] : Verif.Bytes))

example : b! "a-Z" = [0x61, 0x2D, 0x5A] := rfl

end Verif
