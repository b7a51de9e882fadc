import Verif.Model.Mongo
/-!
# The texts of Mongo values

Models `quote_json_string()` (utils.cpp:174-241) and how `Mongo_Value::print_to()` (mongo_value.cpp:53-201) prints values that are not containers.

`::asteria::utf8_decode()`, floating-point numbers and the conversion of times to milliseconds, which is one of floating-point numbers, are parameters.
-/
namespace Verif.Mongo

/-- What other libraries do. -/
structure TextLib where
  /-- `::asteria::utf8_decode()`: the code point at the beginning of the text and the number of its bytes, or `none`. -/
  decode : Bytes → Option (Nat × Nat)
  double : Nat → Bytes
  millis : Int → Int

/-- The digit of a number below 16, as `put_XU()` writes it. -/
def upperDigit (n : Nat) : Byte := if n < 10 then UInt8.ofNat (48 + n) else UInt8.ofNat (55 + n)

/-- `put_XU(n, 8)`: the prefix `0x` and at least eight digits.  (utils.cpp:230; compare http_client_session.cpp:229-230, where the prefix is skipped) -/
def put_XU (n : Nat) : Bytes := b! "0x" ++ (List.range 8).reverse.map (fun i => upperDigit (n / 16 ^ i % 16))

/-- `::asteria::utf16_encode()` -/
def utf16 (cp : Nat) : List Nat := if cp < 0x10000 then [cp] else [0xD800 + (cp - 0x10000) / 1024, 0xDC00 + (cp - 0x10000) % 1024]

/-- The characters for one code point.  Simplified: where there is one UTF-16 unit only, the code reads an indeterminate value for the other one, which is zero here.
(utils.cpp:185-237) -/
def quoteChar (cp : Nat) : Bytes :=
  if cp = 8 then b! "\\b"
  else if cp = 12 then b! "\\f"
  else if cp = 10 then b! "\\n"
  else if cp = 13 then b! "\\r"
  else if cp = 9 then b! "\\t"
  else if cp = 0x22 ∨ cp = 0x5C then [chr '\\', UInt8.ofNat cp]
  else if 0x20 ≤ cp ∧ cp ≤ 0x7E then [UInt8.ofNat cp]
  else
    let ustr := utf16 cp
    let nump := put_XU (ustr.getD 0 0 * 0x10000 + ustr.getD 1 0)
    (chr '\\' :: chr 'u' :: (nump.take 4 ++ (chr '\\' :: chr 'u' :: (nump.drop 4).take 4))).take (ustr.length * 6)

/-- The loop.  (utils.cpp:178-239) -/
def quoteLoop (L : TextLib) : Nat → Bytes → Bytes
  | 0, _ => []
  | n + 1, s =>
    match s with
    | [] => []
    | _ :: t =>
      match L.decode s with
      | some (cp, k) => quoteChar cp ++ quoteLoop L n (s.drop k)
      | none => quoteChar 0xFFFD ++ quoteLoop L n t

/-- `quote_json_string()`.  (utils.cpp:174-241) -/
def quote_json_string (L : TextLib) (s : Bytes) : Bytes := chr '"' :: (quoteLoop L s.length s ++ [chr '"'])

/-- A digit of base64. -/
def digit64 (n : Nat) : Byte :=
  if n < 26 then UInt8.ofNat (65 + n)
  else if n < 52 then UInt8.ofNat (71 + n)
  else if n < 62 then UInt8.ofNat (n - 4)
  else if n = 62 then chr '+'
  else chr '/'

/-- `EVP_EncodeBlock()`, of OpenSSL. -/
def encodeBlock : Bytes → Bytes
  | [] => []
  | [a] => [digit64 (a.toNat / 4), digit64 (a.toNat % 4 * 16), chr '=', chr '=']
  | [a, b] => [digit64 (a.toNat / 4), digit64 (a.toNat % 4 * 16 + b.toNat / 16), digit64 (b.toNat % 16 * 4), chr '=']
  | a :: b :: c :: s =>
    digit64 (a.toNat / 4) :: digit64 (a.toNat % 4 * 16 + b.toNat / 16) :: digit64 (b.toNat % 16 * 4 + c.toNat / 64) :: digit64 (c.toNat % 64) :: encodeBlock s

/-- Blocks of 48 bytes.  (mongo_value.cpp:97-105) -/
def blocks64 : Nat → Bytes → Bytes
  | 0, _ => []
  | n + 1, s =>
    match s with
    | [] => []
    | s =>
      let block := s.take 48
      (encodeBlock block).take ((block.length + 2) / 3 * 4) ++ blocks64 n (s.drop 48)

def lowerDigit (n : Nat) : Byte := if n < 10 then UInt8.ofNat (48 + n) else UInt8.ofNat (87 + n)

/-- `bson_oid_to_string()`, of libbson. -/
def oidText (s : Bytes) : Bytes := s.flatMap (fun b => [lowerDigit (b.toNat / 16), lowerDigit (b.toNat % 16)])

/-- A signed integer. -/
def intText (n : Int) : Bytes := if n < 0 then chr '-' :: Http.decimal n.natAbs else Http.decimal n.natAbs

/-- Values that are not containers.  (mongo_value.cpp:73-109, 149-173) -/
def leafText (L : TextLib) : Value → Bytes
  | .null => b! "null"
  | .boolean b => if b then b! "true" else b! "false"
  | .integer n => intText n
  | .double d => L.double d
  | .utf8 s => quote_json_string L s
  | .binary s => b! "{$base64:\"" ++ blocks64 s.length s ++ b! "\"}"
  | .oid s => b! "{$oid:\"" ++ oidText s ++ b! "\"}"
  | .datetime ns => b! "{$date:{$numberLong:\"" ++ intText (L.millis ns) ++ b! "\"}}"
  | .array _ => []
  | .document _ => []

/-- `to_string()`; `none` is undefined behavior.  (mongo_value.cpp:203-211) -/
def to_string (L : TextLib) (v : Value) : Option Bytes := printTo { key := quote_json_string L, leaf := leafText L } v []

end Verif.Mongo
