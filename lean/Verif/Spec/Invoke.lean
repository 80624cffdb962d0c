import Verif.Model.Filter
import Verif.Model.Wire
import Verif.Spec.Filter
/-! # Specification vocabulary: pools and their participants -/
namespace OM.Spec

/-- The creation-time filter has an illegal end. -/
def BadTimes (p : Pool) : Prop :=
  ∃ f, p.creationTimeRangeFilter = some f ∧
    ((∃ s, f.start = some s ∧ ¬ Legal s) ∨ (∃ e, f.stop = some e ∧ ¬ Legal e))

/-- The tickets of the snapshot that the pool's filters admit. -/
def participants (p : Pool) (ts : List Ticket) : List Ticket :=
  ts.filter fun t => decide (Filter.In (some p) (some t) = some true)

/-- Sum of sizes. -/
def total (sz : Ticket → Nat) (l : List (Str × Ticket)) : Nat := (l.map fun e => sz e.2).sum

/-- The tickets filed under a name, in order. -/
def under (n : Str) (l : List (Str × Ticket)) : List Ticket :=
  (l.filter fun e => decide (e.1 = n)).map (·.2)

/-- The bytes on the wire of a request with this profile, before any ticket is added and
with the longest chunk count. -/
def emptySize (p : Profile) : Nat := (Wire.ser (Wire.chunkF ⟨some p, 2147483647⟩)).length

/-- The bytes of a ticket, and of a chunk, on the wire. -/
def ticketSize (t : Ticket) : Nat := (Wire.ser (Wire.ticketF t)).length
def chunkSize (r : ChunkedMmfRunRequest) : Nat := (Wire.ser (Wire.chunkF r)).length

/-- A chunk's tickets are within the budget, or it holds at most one. -/
def SegOk (sz : Ticket → Nat) (empty : Nat) (s : List (Str × Ticket)) : Prop :=
  empty + total sz s < 4000000 ∨ s.length ≤ 1

/-- `b` starts with a ticket that did not fit into `a`. -/
def NeededSplit (sz : Ticket → Nat) (empty : Nat) (a b : List (Str × Ticket)) : Prop :=
  ∃ e rest, b = e :: rest ∧ 4000000 ≤ empty + total sz a + sz e.2

/-- The message received is the message sent, up to the order of map entries. -/
def Received (sent got : ChunkedMmfRunRequest) : Prop :=
  ∃ q p, sent.profile = some p ∧ got.profile = some q ∧ got.numChunks = sent.numChunks ∧
    q.name = p.name ∧ q.extensions.Perm p.extensions ∧ q.pools.Perm p.pools

/-- The tickets a request chunk carries for a pool name. -/
def ticketsFor (r : ChunkedMmfRunRequest) (name : Str) : List Ticket :=
  (((r.profile.bind fun p => p.pools.load name).bind (·.participants)).map (·.tickets)).getD []

/-- The chunk carries exactly these (pool name, ticket) pairs, in this order per pool. -/
def Carries (r : ChunkedMmfRunRequest) (seg : List (Str × Ticket)) : Prop :=
  ∀ name, ticketsFor r name = under name seg

end OM.Spec
