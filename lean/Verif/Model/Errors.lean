import Verif.Model.Handlers
import Verif.Model.Frontend
/-!
# How errors travel

What a handler's error becomes for a client: grpc-go 1.62.1 sends status, message and details in
trailers (`WriteStatus`, `encodeGrpcMessage`), the client reads them (`decodeGrpcMessage`,
`istatus.NewWithProto`), and the gateway, which is such a client (core/server.go:56-72,
api.pb.gw.go:353-357), turns them into an HTTP status and a JSON body (grpc-gateway 2.19.0:
`DefaultHTTPErrorHandler`, `handleForwardResponseStreamError`).  The libraries' code is not part of
the repository and is modelled from its documented behaviour.  Left out: base64 of binary headers,
the limit on the size of headers (16 MB), errors of the connection itself, and that grpc-go gives
a storage error which is a context's time-out a code of its own (here `Unknown`, as for all others).
-/
namespace OM.Err

/-- `codes.Code` of the codes that the handlers use. -/
def codeNum : Code → Nat
  | .ok => 0
  | .unknown => 2
  | .invalidArgument => 3
  | .internal => 13

/-! ## `grpc-message` -/

/-- The bytes that are sent as they are. -/
def plain (c : Char) : Bool := decide (0x20 ≤ c.toNat ∧ c.toNat ≤ 0x7E ∧ c ≠ '%')

def hexUpper (n : Nat) : Char := if n < 10 then Char.ofNat (48 + n) else Char.ofNat (55 + n)

/-- `%%%02X`. -/
def pct (c : Char) : Str := ['%', hexUpper (c.toNat / 16), hexUpper (c.toNat % 16)]

/-- The size of the first character (`utf8.DecodeRuneInString`); `none`: not UTF-8. -/
def runeSize : Str → Option Nat
  | [] => none
  | c :: s => if c.toNat < 0x80 then some 1 else [2, 3, 4].find? fun n => decide (n ≤ s.length + 1) && Wire.utf8Valid ((c :: s).take n)

/-- `utf8.RuneError` as a string: U+FFFD. -/
def runeError : Str := [Char.ofNat 0xEF, Char.ofNat 0xBF, Char.ofNat 0xBD]

/-- `encodeGrpcMessageUnchecked`; the bound is the number of bytes. -/
def encodeF : Nat → Str → Str
  | 0, _ => []
  | _, [] => []
  | n + 1, c :: s =>
    match runeSize (c :: s) with
    | none => runeError.flatMap pct ++ encodeF n s
    | some 1 => (if plain c then [c] else pct c) ++ encodeF n s
    | some k => ((c :: s).take k).flatMap pct ++ encodeF n ((c :: s).drop k)

/-- `encodeGrpcMessage`: a message with nothing to encode is sent as it is. -/
def encode (m : Str) : Str := if m.all plain then m else encodeF m.length m

/-- `decodeGrpcMessage`: what is not a percent sign and two hexadecimal digits is kept. -/
def decode : Str → Str
  | '%' :: a :: b :: s =>
    match Json.hexVal a, Json.hexVal b with
    | some x, some y => Char.ofNat (x * 16 + y) :: decode s
    | _, _ => '%' :: decode (a :: b :: s)
  | c :: s => c :: decode s
  | [] => []

/-! ## `google.rpc.Status` -/

/-- google/rpc/status.proto. -/
structure StatusPb where
  code : Int
  msg : Str
  details : List AnyPb
  deriving DecidableEq

open Wire in
def statusF (s : StatusPb) : List Field := intField 1 s.code ++ strField 2 s.msg ++ repField 3 (s.details.map fun a => ser (anyF a))
open Wire in
def toStatus (fs : List Field) : StatusPb := ⟨getInt32 1 fs, getStr 2 fs, getMsgs 3 fs toAny⟩
open Wire in
def statusOk (s : StatusPb) : Bool := int32Ok s.code && utf8Valid s.msg && s.details.all anyOk

/-- google/rpc/error_details.proto: `BadRequest` and its `FieldViolation`s. -/
def violationF (v : Str × Str) : List Wire.Field := Wire.strField 1 v.1 ++ Wire.strField 2 v.2
def toViolation (fs : List Wire.Field) : Str × Str := (Wire.getStr 1 fs, Wire.getStr 2 fs)
def violationOk (v : Str × Str) : Bool := Wire.utf8Valid v.1 && Wire.utf8Valid v.2
def badRequestF (vs : List (Str × Str)) : List Wire.Field := Wire.repField 1 (vs.map fun v => Wire.ser (violationF v))
def toBadRequest (fs : List Wire.Field) : List (Str × Str) := Wire.getMsgs 1 fs toViolation

def badRequestUrl : Str := "type.googleapis.com/google.rpc.BadRequest".toList

/-- The status of a handler's error; `WithDetails` (core/main.go:918) packs the violations. -/
def statusOf (e : RpcErr) : StatusPb :=
  ⟨codeNum e.code, e.msg, if e.violations = [] then [] else [⟨badRequestUrl, Wire.ser (badRequestF e.violations)⟩]⟩

/-- The violations that a client finds in the details. -/
def StatusPb.violations (s : StatusPb) : List (Str × Str) :=
  s.details.flatMap fun a =>
    if PJ.typeName a.typeUrl = "google.rpc.BadRequest".toList then
      (Wire.unmarshal toBadRequest (fun vs => vs.all violationOk) a.value).getD []
    else []

/-! ## Trailers -/

structure Trailers where
  status : Str
  message : Str
  details : Option Str

/-- `WriteStatus`: details that cannot be encoded are logged and left out. -/
def trailers (s : StatusPb) : Trailers :=
  ⟨fmtInt s.code, encode s.msg, if s.details = [] then none else Wire.marshal statusF statusOk s⟩

/-- `operateHeaders` and `istatus.NewWithProto`.  (The message of a mismatch is cut short.) -/
def received (t : Trailers) : StatusPb :=
  match parseInt10 t.status with
  | .ok code =>
    match t.details.bind (Wire.unmarshal toStatus statusOk) with
    | none => ⟨code, decode t.message, []⟩
    | some s => if s.code = code then s else ⟨13, "grpc-status-details-bin mismatch".toList, []⟩
  | _ => ⟨13, "transport: malformed grpc-status".toList, []⟩

/-- What a client gets for a handler's error. -/
def clientSees (e : RpcErr) : StatusPb := received (trailers (statusOf e))

/-! ## The gateway -/

/-- `runtime.HTTPStatusFromCode`. -/
def httpStatus (code : Int) : Nat :=
  if code = 0 then 200
  else if code = 1 then 499
  else if code = 2 then 500
  else if code = 3 then 400
  else if code = 4 then 504
  else if code = 5 then 404
  else if code = 6 then 409
  else if code = 7 then 403
  else if code = 8 then 429
  else if code = 9 then 400
  else if code = 10 then 409
  else if code = 11 then 400
  else if code = 12 then 501
  else if code = 13 then 500
  else if code = 14 then 503
  else if code = 15 then 500
  else if code = 16 then 401
  else 500

/-- A detail as JSON; `none`: a type that om-core does not know, or a value of it that cannot be read. -/
def detailJson (a : AnyPb) : Option Json :=
  if PJ.typeName a.typeUrl = "google.rpc.BadRequest".toList then
    (Wire.unmarshal toBadRequest (fun vs => vs.all violationOk) a.value).map fun vs =>
      .obj [("@type".toList, .str a.typeUrl),
        ("fieldViolations".toList, .arr (vs.map fun v => .obj [("field".toList, .str v.1), ("description".toList, .str v.2)]))]
  else none

def statusJson (s : StatusPb) : Option Json :=
  (s.details.mapM detailJson).map fun ds =>
    .obj [("code".toList, .num (fmtInt s.code)), ("message".toList, .str s.msg), ("details".toList, .arr ds)]

/-- `DefaultHTTPErrorHandler`: the HTTP status and the body. -/
def restError (sep : Str) (s : StatusPb) : Nat × Str :=
  match PJ.marshal statusJson false sep s with
  | none => (500, Front.fallback)
  | some b => (httpStatus s.code, b)

/-- `handleForwardResponseStreamError`: the HTTP status, if no message was sent before, and the last
line of the body. -/
def streamError (s : StatusPb) : Nat × Option Str :=
  (httpStatus s.code, PJ.marshal (fun s => (statusJson s).map fun j => .obj [("error".toList, j)]) true [] s)

end OM.Err
