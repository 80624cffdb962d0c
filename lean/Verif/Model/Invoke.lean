import Verif.Model.Filter
import Verif.Model.Wire
/-!
# Filling pools and chunking the MMF request

core/main.go:366-472 (first half of `InvokeMatchmakingFunctions`) and
mmf/server/server.go:70-112 `GetChunkedRequest`.
-/
namespace OM

/-- core/main.go:400-408: the names of the pools that pass validation. -/
def validPools (ps : GoMap Pool) : List Str :=
  (ps.filter fun e => (Filter.validatePoolFilters (some e.2)).isNone).map (·.1)

/-- core/main.go:415. -/
def maxPbSize : Nat := 4 * 1000 * 1000

/-- One element of `chunkedPools`: pool name to participants. -/
abbrev Chunk := GoMap (List Ticket)

/-- core/main.go:418-424: `chunkedPools` split into all but the last (`full`) and the one at
index `chunkCount` (`cur`), and `curChunkSize`. -/
structure ChunkSt where
  full : List Chunk
  cur : Chunk
  size : Nat
  deriving DecidableEq

/-- core/main.go:438 `m[name] = append(m[name], ticket)`. -/
def appendTo (c : Chunk) (name : Str) (t : Ticket) : Chunk := c.store name ((c.load name).getD [] ++ [t])

/-- core/main.go:430-439: one matching ticket is added; `sz` is `proto.Size(ticket)` and
`empty` is `emptyChunkSize`. -/
def addTicket (sz : Ticket → Nat) (empty : Nat) (st : ChunkSt) (name : Str) (t : Ticket) : ChunkSt :=
  let st := if st.size + sz t ≥ maxPbSize then { full := st.full ++ [st.cur], cur := [], size := empty } else st
  { st with cur := appendTo st.cur name t, size := st.size + sz t }

/-- core/main.go:427-441: one pool looks at one ticket. -/
def offer (sz : Ticket → Nat) (empty : Nat) (ps : GoMap Pool) (t : Ticket) (st : ChunkSt) (name : Str) : Go ChunkSt :=
  match Filter.In (ps.load name) (some t) with
  | none => Go.panic
  | some true => some (addTicket sz empty st name t)
  | some false => some st

/-- core/main.go:426-442: the double loop.  Each ticket comes with the order in which the
`validPools` map is iterated for it. -/
def fillPools (sz : Ticket → Nat) (empty : Nat) (ps : GoMap Pool) (work : List (Ticket × List Str)) : Go ChunkSt :=
  work.foldlM (fun st w => w.2.foldlM (offer sz empty ps w.1) st) ⟨[], [], empty⟩

/-- core/main.go:418-444 `chunkedPools` at the end. -/
def ChunkSt.chunks (st : ChunkSt) : List Chunk := st.full ++ [st.cur]

/-- core/main.go:461-467: a pool as it is sent. -/
def sentPool (name : Str) (ts : List Ticket) : Pool :=
  { name := [], tagPresentFilters := [], stringEqualsFilters := [], doubleRangeFilters := []
    creationTimeRangeFilter := none
    participants := some { name := name ++ "_roster".toList, assignment := none, tickets := ts, extensions := [] }
    extensions := [] }

/-- core/main.go:453-471: one request chunk.  Simplification: `int32(len(chunkedPools))` is
not wrapped; the properties assume fewer than 2^31 chunks. -/
def chunkRequest (p : Profile) (n : Nat) (c : Chunk) : ChunkedMmfRunRequest :=
  { profile := some { name := p.name, pools := c.map fun e => (e.1, sentPool e.1 e.2), extensions := p.extensions }
    numChunks := n }

/-- core/main.go:417. -/
def emptyChunkSize (p : Profile) : Nat := Wire.sizeChunk ⟨some p, 2147483647⟩

/-- core/main.go:400-472: from the snapshot to `chunkedRequest`. -/
def chunkedRequest (p : Profile) (work : List (Ticket × List Str)) : Go (List ChunkedMmfRunRequest) :=
  (fillPools Wire.sizeTicket (emptyChunkSize p) p.pools work).map fun st =>
    st.chunks.map (chunkRequest p st.chunks.length)

/-- `work` is a possible run of the loops over the snapshot `ts`: every ticket in
order, each with some iteration order of the valid pools. -/
def WorkFor (p : Profile) (ts : List Ticket) (work : List (Ticket × List Str)) : Prop :=
  work.map (·.1) = ts ∧ ∀ w ∈ work, w.2.Perm (validPools p.pools)

/-! ## The MMF side -/

/-- mmf/server/server.go:82-99: merge one pool of a chunk; a pool without participants makes the
next chunk's append dereference nil. -/
def mergePool (pools : GoMap Pool) (e : Str × Pool) : Go (GoMap Pool) :=
  match pools.load e.1 with
  | none => some (pools.store e.1 e.2)
  | some q =>
    match q.participants with
    | none => Go.panic
    | some r =>
      let more := (e.2.participants.map (·.tickets)).getD []
      some (pools.store e.1 { q with participants := some { r with tickets := r.tickets ++ more } })

/-- What `GetChunkedRequest` returns. -/
inductive GetRes where
  | err
  | profile (p : Option Profile)
  deriving DecidableEq

/-- mmf/server/server.go:74-111: `i` counts chunks; `msgs` is what the stream delivers before it
ends with an error.  Also returns the messages left unread. -/
def getChunks : Nat → GoMap Pool → List ChunkedMmfRunRequest → Go (GetRes × List ChunkedMmfRunRequest)
  | i, pools, msgs =>
    if i > 2147483647 then some (.profile none, msgs)   -- the int32 counter wrapped: loop ends
    else
      match msgs with
      | [] => some (.err, [])
      | m :: rest =>
        match ((m.profile.map (·.pools)).getD []).foldlM mergePool pools with
        | none => Go.panic
        | some pools' =>
          if m.numChunks = (i : Int) then
            some (.profile (some
              { name := (m.profile.map (·.name)).getD []
                pools := pools'
                extensions := (m.profile.map (·.extensions)).getD [] }), rest)
          else getChunks (i + 1) pools' rest
  termination_by structural _ _ msgs => msgs

def getChunkedRequest (msgs : List ChunkedMmfRunRequest) : Go (GetRes × List ChunkedMmfRunRequest) :=
  getChunks 1 [] msgs

end OM
