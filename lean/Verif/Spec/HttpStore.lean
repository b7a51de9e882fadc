import Verif.Model.HttpStore
import Verif.Spec.HttpValue
/-!
# What an HTTP value says after it has been assigned
-/
namespace Verif.Spec.HttpStore
open Verif.Http Verif.HttpStore

/-- What a careful user gets, who reads a number or a time only if the value says that it has one. -/
structure Told (D : Type) where
  null : Bool
  string : Bytes
  integer : Option Int
  double : Option D
  datetime : Option Int
  text : Bytes

def told {D : Type} (v : View D) : Told D where
  null := v.is_null
  string := v.as_string
  integer := if v.is_integer then some v.as_integer else none
  double := if v.is_double then some v.as_double else none
  datetime := if v.is_datetime then some v.as_datetime else none
  text := v.to_string

/-- The call gives the value a new content.  Parsing an empty text does not. -/
def Gives {L : Lib} : Op L → Prop
  | .parse s => s ≠ []
  | _ => True

/-- The call assigns a text. -/
def Assigns {L : Lib} : Op L → Prop
  | .str _ => True
  | _ => False

end Verif.Spec.HttpStore
