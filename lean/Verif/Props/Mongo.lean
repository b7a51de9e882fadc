import Verif.Proofs.Mongo
/-!
# C46 and C47: Mongo values
-/
namespace Verif.Props
open Verif.Mongo

/-- C46: a command is sent as the BSON document that it stands for, at any depth; and exactly those are rejected that have a key which libbson does not accept, or a string which is
too long, or that do not pass validation. -/
theorem C46_pack (ok : Bytes → Bool) (valid : List (Bytes × Bson) → Bool) (cmd : List (Bytes × Value)) :
    execute ok valid cmd = if packableDoc ok cmd && valid (bsonDoc cmd) then some (bsonDoc cmd) else none := execute_eq ok valid cmd

/-- Non-vacuity. -/
example : execute (fun k => !k.contains 0) (fun _ => true) [(b! "a", .array [.integer 1, .array [], .document [(b! "x", .null)]]), (b! "b", .integer 5000000000)] =
    some [(b! "a", .array [(b! "0", .int32 1), (b! "1", .array []), (b! "2", .document [(b! "x", .null)])]), (b! "b", .int64 5000000000)] ∧
    execute (fun k => !k.contains 0) (fun _ => true) [(b! "a", .array [.document [([0], .null)]])] = none := ⟨rfl, rfl⟩

/-- C46 (part): a document that is packed and then unpacked is the same, with date-times truncated to milliseconds, if in each document and array only the last element is a
document or array that is not empty.  Missing: all other documents, for which it does not hold, see `C46_misplaced`. -/
theorem C46_roundtrip_partial (ok : Bytes → Bool) (valid : List (Bytes × Bson) → Bool) (doc : List (Bytes × Value)) (h1 : packableDoc ok doc = true) (h2 : valid (bsonDoc doc) = true)
    (h3 : inRangeDoc doc) (h4 : tidyDoc doc) : ∃ b, execute ok valid doc = some b ∧ unpack b = some (truncateDoc doc) := by
  refine ⟨bsonDoc doc, ?_, ?_⟩
  · rw [execute_eq, h1, h2]; rfl
  · rw [unpack_eq _ (fits_doc doc h3), build_doc doc h3 h4]

/-- A document that meets the condition. -/
def tidyDemo : List (Bytes × Value) := [(b! "a", .array []), (b! "t", .datetime (-1500001)), (b! "b", .document [(b! "x", .integer 1), (b! "y", .array [.null, .utf8 (b! "z")])])]

/-- Non-vacuity. -/
example : packableDoc (fun _ => true) tidyDemo = true ∧ inRangeDoc tidyDemo ∧ tidyDoc tidyDemo ∧
    truncateDoc tidyDemo = [(b! "a", .array []), (b! "t", .datetime (-1000000)), (b! "b", .document [(b! "x", .integer 1), (b! "y", .array [.null, .utf8 (b! "z")])])] := by
  refine ⟨by decide, ?_, ?_, rfl⟩
  · simp [tidyDemo, inRangeDoc, inRangeArr, Value.inRange]
  · simp [tidyDemo, tidyDoc, tidyArr, Value.tidy, Value.filled]

/-- C46 does not hold in general: when an array or a document which is not empty is complete, what follows it is put into it, not into the one that it is in.  A document with
an array and a number is received as a document with only an array, which contains the number. -/
theorem C46_misplaced : unpack (bsonDoc [(b! "a", .array [.integer 1]), (b! "b", .integer 2)]) = some [(b! "a", .array [.integer 1, .integer 2])] ∧
    unpack (bsonDoc [(b! "a", .document [(b! "x", .integer 1)]), (b! "ok", .integer 2)]) = some [(b! "a", .document [(b! "x", .integer 1), (b! "ok", .integer 2)])] := ⟨rfl, rfl⟩

/-- C46: so every document whose first element is a document or array which is not empty is received as a document with one element. -/
theorem C46_one_element (k : Bytes) (e : Bytes × Bson) (es rest : List (Bytes × Bson)) (h : fitsList ((k, .document (e :: es)) :: rest)) :
    ∃ v, unpack ((k, .document (e :: es)) :: rest) = some [(k, v)] := by
  rw [unpack_eq _ h, build, buildOne]
  exact ⟨_, rfl⟩

example : fitsList [(b! "a", .document [(b! "x", .null)]), (b! "b", .null)] := by simp [fitsList, Bson.fits]

/-- A date-time from the server that is out of the range of nanoseconds, such as one in the year 9999, is a signed overflow. -/
theorem C46_overflow : unpack [(b! "t", .datetime 253402300799999)] = none ∧ unpack [(b! "t", .datetime 1)] = some [(b! "t", .datetime 1000000)] := ⟨rfl, rfl⟩

/-- C47: the printer, which has no recursion, prints what the recursive definition of the format prescribes. -/
theorem C47_mongo (F : Fmt) (v : Value) (fmt : Bytes) : printTo F v fmt = some (fmt ++ v.text F) := print_value F v fmt

/-- Non-vacuity. -/
example : printTo { key := id, leaf := fun _ => b! "7" } (.document [(b! "a", .array [.null, .document []]), (b! "b", .document [(b! "c", .null)])]) [] = some (b! "{a:[7,{}],b:{c:7}}") ∧
    (Value.document [(b! "a", .array [.null, .document []]), (b! "b", .document [(b! "c", .null)])]).text { key := id, leaf := fun _ => b! "7" } = b! "{a:[7,{}],b:{c:7}}" := ⟨rfl, rfl⟩

end Verif.Props
