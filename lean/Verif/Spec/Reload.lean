import Verif.Spec.Config
/-! # Specification: settings in a configuration file -/
namespace Verif.Spec.Reload
open Verif.Config

variable {R : Type}

/-- What is in the file under these names, each in the one before -/
def entry (root : List (Bytes × Value R)) (names : List Bytes) : Res R := follow (.object root) (names.map .name)

/-- A setting which is a string: what the file has; the default if it has nothing; `none` if it has something else -/
def text (root : List (Bytes × Value R)) (names : List Bytes) (default : Bytes) : Option Bytes :=
  match entry root names with
  | .found (.string s) => some s
  | .found .null => some default
  | .missing => some default
  | _ => none

/-- A setting which is an integer in a range -/
def number (root : List (Bytes × Value R)) (names : List Bytes) (min max default : Int) : Option Int :=
  match entry root names with
  | .found (.integer i) => if min ≤ i ∧ i ≤ max then some i else none
  | .found .null => some default
  | .missing => some default
  | _ => none

/-- A setting which is a boolean -/
def flag (root : List (Bytes × Value R)) (names : List Bytes) (default : Bool) : Option Bool :=
  match entry root names with
  | .found (.boolean b) => some b
  | .found .null => some default
  | .missing => some default
  | _ => none

/-- Strings of an array, if there are no other values in it -/
def allStrings : List (Value R) → Option (List Bytes)
  | [] => some []
  | .string s :: t => (allStrings t).map (s :: ·)
  | _ :: _ => none

/-- A setting which is an array of strings -/
def texts (root : List (Bytes × Value R)) (names : List Bytes) (default : Option (List Bytes)) : Option (List Bytes) :=
  match entry root names with
  | .found (.array l) => allStrings l
  | .found .null => default
  | .missing => default
  | _ => none

end Verif.Spec.Reload
