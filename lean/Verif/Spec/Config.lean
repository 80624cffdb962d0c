import Verif.Model.Config
/-!
# What the configuration variables are documented to do

core/internal/config/config.go:23-120, from its comments.
-/
namespace OM.Spec
open OM.Conf

/-- Unset, which includes empty. -/
def Unset (env : GoMap Str) (key : Str) : Prop := env.load key = none ∨ env.load key = some []

/-- Set to the int64 `n`, written in decimal. -/
def SetTo (env : GoMap Str) (key : Str) (n : Int) : Prop :=
  env.load key = some (fmtInt n) ∧ -2 ^ 63 ≤ n ∧ n < 2 ^ 63

/-- The documented numeric settings and their defaults. -/
def documented : List (Str × Int) :=
  [ ("OM_MAX_STATE_UPDATES_PER_CALL".toList, 500),
    ("OM_MMF_TIMEOUT_SECS".toList, 500),
    ("OM_REDIS_POOL_MAX_IDLE".toList, 500),
    ("OM_REDIS_POOL_MAX_ACTIVE".toList, 500),
    ("OM_REDIS_WRITE_PORT".toList, 6379),
    ("OM_REDIS_READ_PORT".toList, 6379),
    ("OM_CACHE_IN_MAX_UPDATES_PER_POLL".toList, 10000),
    ("OM_CACHE_IN_WAIT_TIMEOUT_MS".toList, 1500),
    ("OM_CACHE_OUT_MAX_QUEUE_THRESHOLD".toList, 50),
    ("OM_CACHE_OUT_WAIT_TIMEOUT_MS".toList, 500),
    ("OM_CACHE_TICKET_TTL_SECS".toList, 600),
    ("OM_CACHE_ASSIGNMENT_ADDITIONAL_TTL_SECS".toList, 600),
    ("PORT".toList, 8080) ]

/-- The environment says that `key` is `n`: set to `n`, or unset with default `n`. -/
def Says (env : GoMap Str) (key : Str) (n : Int) : Prop :=
  SetTo env key n ∨ (Unset env key ∧ (key, n) ∈ documented)

/-- The environment says that the text setting `key` with default `d` is `v`. -/
def SaysText (env : GoMap Str) (key d v : Str) : Prop :=
  (env.load key = some v ∧ v ≠ []) ∨ (Unset env key ∧ v = d)

end OM.Spec
