import Verif.Model.Library

/-! # What the library-wide properties mean, in terms of the calls made -/

namespace TDy.Lib.Spec

/-- The user's shutdown functions, in the order in which they were registered. -/
def userRegistrations : List Op → List Nat
  | [] => []
  | .onFinalize id :: os => id :: userRegistrations os
  | _ :: os => userRegistrations os

/-- The user's functions in a log of calls. -/
def userCalls : List ShutFn → List Nat
  | [] => []
  | .user id :: fs => id :: userCalls fs
  | _ :: fs => userCalls fs

/-- The function most recently registered under a name. -/
def latest (name : String) : List Op → Option Nat
  | [] => none
  | .register n f :: os =>
    match latest name os with
    | some g => some g
    | none => if n = name then some f else none
  | _ :: os => latest name os

end TDy.Lib.Spec
