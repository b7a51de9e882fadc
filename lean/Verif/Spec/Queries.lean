import Verif.Model.Queries
/-! # Specification vocabulary for queries -/
namespace Verif.Spec
open Verif.MongoQuery Verif.Mongo

/-- What a reply of a MongoDB server stands for: the documents of the cursor in it, in order, followed by an error or not; or if there is no cursor in it, itself. -/
inductive Answer (net : Net) (sent : List Bdoc) : Bdoc → List Bdoc → Bool → Prop
  | cursor {r v} : (b! "cursor", v) ∈ r → Answer net sent r (net.cursor sent r).docs (net.cursor sent r).error
  | reply {r} : (∀ v, (b! "cursor", v) ∉ r) → Answer net sent r [r] false

/-- Documents are converted one by one; see C46. -/
inductive Unpacked : List Bdoc → List (List (Bytes × Value)) → Prop
  | nil : Unpacked [] []
  | cons {d ds v vs} : unpack d = some v → Unpacked ds vs → Unpacked (d :: ds) (v :: vs)

end Verif.Spec
