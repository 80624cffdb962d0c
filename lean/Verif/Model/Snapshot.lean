import Verif.Model.Cache
/-!
# Concurrent snapshots of the cache

core/main.go:932-959 `syncMapDump`, `setDifference`, running concurrently with the
incoming goroutine's writes.  `setDifference` first ranges over the inactive set,
then over the tickets.  sync.Map documents that a `Range` visits no key twice and
"may reflect any mapping for that key from any point during the Range call".
-/
namespace OM

/-- When a snapshot looks at each key: positions in the sequence of writes.  The
inactive set is dumped between `lo` and `mid`, the tickets between `mid` and `hi`. -/
structure Snap where
  lo : Nat
  mid : Nat
  hi : Nat
  /-- position at which the inactive-set `Range` reflects key `k` -/
  r1 : Str → Nat
  /-- position at which the tickets `Range` reflects key `k` -/
  r2 : Str → Nat

def Snap.OK (sn : Snap) (ops : List MOp) : Prop :=
  (∀ k, sn.lo ≤ sn.r1 k ∧ sn.r1 k ≤ sn.mid) ∧ (∀ k, sn.mid ≤ sn.r2 k ∧ sn.r2 k ≤ sn.hi) ∧
  sn.hi ≤ ops.length

/-- The cache after the first `n` writes. -/
def cacheAt (c : Cache) (ops : List MOp) (n : Nat) : Cache := runOps c (ops.take n)

/-- core/main.go:947-959: what the snapshot holds for key `k`. -/
def snapLoad (c : Cache) (ops : List MOp) (sn : Snap) (k : Str) : Option Ticket :=
  match (cacheAt c ops (sn.r1 k)).inactive.load k with
  | some _ => none
  | none => (cacheAt c ops (sn.r2 k)).tickets.load k

/-- `m` is a result `setDifference` may return (in some order). -/
def IsSnapshot (c : Cache) (ops : List MOp) (sn : Snap) (m : GoMap Ticket) : Prop :=
  sn.OK ops ∧ m.WF ∧ ∀ k, m.load k = snapLoad c ops sn k

end OM
