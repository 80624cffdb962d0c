import Verif.Model.Snapshot
/-!
# The closing line

core/main.go:133: when the server has stopped, the process writes how much its cache holds.  The goroutine
that applies updates and expires goes on meanwhile, so each of the four counts is taken while it writes.
-/
namespace OM

/-- `m` is a result that `syncMapDump` (core/main.go:932-939) may return for the map `f` of the cache
while the writes number `lo` to `hi` of `ops` are done (sync.Map's promise as in `Snap`). -/
def IsDump {V : Type} (f : Cache → GoMap V) (c : Cache) (ops : List MOp) (lo hi : Nat) (m : GoMap V) : Prop :=
  ∃ r : Str → Nat, (∀ k, lo ≤ r k ∧ r k ≤ hi) ∧ m.WF ∧ ∀ k, m.load k = (f (cacheAt c ops (r k))).load k

/-- The numbers of the closing line. -/
structure Closing where
  tickets : Nat
  active : Nat
  inactive : Nat
  assignments : Nat

/-- core/main.go:133: the arguments are computed one after the other, between the writes number `lo` and
`hi`. -/
def Closes (c : Cache) (ops : List MOp) (lo hi : Nat) (n : Closing) : Prop :=
  ∃ (m1 : GoMap Ticket) (m2 : GoMap Ticket) (m3 : GoMap Unit) (m4 : GoMap Assignment) (sn : Snap) (t4 : Nat),
    lo ≤ sn.lo ∧ sn.hi ≤ t4 ∧ t4 ≤ hi ∧ hi ≤ ops.length ∧
    IsDump Cache.tickets c ops lo sn.lo m1 ∧ IsSnapshot c ops sn m2 ∧
    IsDump Cache.inactive c ops sn.hi t4 m3 ∧ IsDump Cache.assignments c ops t4 hi m4 ∧
    n = ⟨m1.length, m2.length, m3.length, m4.length⟩

/-- core/main.go:133. -/
def closingText (n : Closing) : Str :=
  "Final state of local cache: ".toList ++ fmtNat n.tickets ++ " tickets, ".toList ++ fmtNat n.active ++ " active, ".toList ++
    fmtNat n.inactive ++ " inactive, ".toList ++ fmtNat n.assignments ++ " assignments".toList

end OM
