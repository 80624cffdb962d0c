import Verif.Spec.ProtoJson
/-!
# Errors, as clients get them

The status codes of gRPC with the HTTP statuses they map to (google/rpc/code.proto), the repair of
messages that are not UTF-8, and the JSON form of an error.
-/
namespace OM.Spec

/-- google/rpc/code.proto: name, number and HTTP mapping. -/
def rpcCodes : List (String × Int × Nat) :=
  [("OK", 0, 200), ("CANCELLED", 1, 499), ("UNKNOWN", 2, 500), ("INVALID_ARGUMENT", 3, 400), ("DEADLINE_EXCEEDED", 4, 504),
   ("NOT_FOUND", 5, 404), ("ALREADY_EXISTS", 6, 409), ("PERMISSION_DENIED", 7, 403), ("RESOURCE_EXHAUSTED", 8, 429),
   ("FAILED_PRECONDITION", 9, 400), ("ABORTED", 10, 409), ("OUT_OF_RANGE", 11, 400), ("UNIMPLEMENTED", 12, 501),
   ("INTERNAL", 13, 500), ("UNAVAILABLE", 14, 503), ("DATA_LOSS", 15, 500), ("UNAUTHENTICATED", 16, 401)]

/-- The name of the code that a handler's error has. -/
def codeName : Code → String
  | .ok => "OK"
  | .unknown => "UNKNOWN"
  | .invalidArgument => "INVALID_ARGUMENT"
  | .internal => "INTERNAL"

/-- `Repaired m r`: `r` is `m` with U+FFFD in place of every byte that is not part of a character. -/
inductive Repaired : Str → Str → Prop
  | nil : Repaired [] []
  | char (c : Char) {s r : Str} : Repaired s r → Repaired (charBytes c ++ s) (charBytes c ++ r)
  | bad {b : Char} {s r : Str} : (¬ ∃ c t, b :: s = charBytes c ++ t) → Repaired s r → Repaired (b :: s) (charBytes (Char.ofNat 0xFFFD) ++ r)

/-- A violation: `field` and `description`. -/
def ViolationJ (v : Str × Str) (j : Json) : Prop := ∃ ms, j = .obj ms ∧ TextJ v.1 (occJ "field" ms) ∧ TextJ v.2 (occJ "description" ms)

/-- The details: none without violations, else one `BadRequest` with them. -/
def DetailsJ (vs : List (Str × Str)) (ds : List Json) : Prop :=
  (vs = [] ∧ ds = []) ∨ (vs ≠ [] ∧ ∃ ms, ds = [.obj ms] ∧ occJ "@type" ms = [.str "type.googleapis.com/google.rpc.BadRequest".toList] ∧
    ListJ ViolationJ vs (occJ "field_violations" ms))

/-- google/rpc/status.proto as JSON. -/
def StatusJ (code : Int) (msg : Str) (vs : List (Str × Str)) (j : Json) : Prop :=
  ∃ ms ds, j = .obj ms ∧ IntJ code (occJ "code" ms) ∧ TextJ msg (occJ "message" ms) ∧ occJ "details" ms = [.arr ds] ∧ DetailsJ vs ds

end OM.Spec
