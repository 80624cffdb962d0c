import Verif.Model.Invoke
/-!
# The example matchmaking functions

functions/golang/{soloduel,battleroyale,teamshooter}.  Each `Run` reads its request with
`GetChunkedRequest` (`Model/Invoke.lean`), builds matches and streams them.  The clock
text and the iteration order of the pools map are parameters, and so is which `Send`
fails (`ok n` for the `n`-th).
-/
namespace OM.Mmf

/-- What the stream has received and whether `Run` returned an error. -/
structure RunRes where
  sent : List Match
  err : Bool
  deriving DecidableEq

/-- `anypb.New` for the well-known wrapper types used; marshalling cannot fail for valid
UTF-8 (`req.Name` came off the wire). -/
def anyInt32 (v : Int) : AnyPb := ⟨"type.googleapis.com/google.protobuf.Int32Value".toList, Wire.ser (Wire.intField 1 v)⟩
def anyString (s : Str) : AnyPb := ⟨"type.googleapis.com/google.protobuf.StringValue".toList, Wire.ser (Wire.strField 1 s)⟩
def anyTime (t : Timestamp) : AnyPb := ⟨"type.googleapis.com/google.protobuf.Timestamp".toList, Wire.ser (Wire.timestampF t)⟩

/-- `fmt.Sprintf("profile-%s-time-%s-num-%d", matchName, t, matchNum)`: soloduel.go:112,
battleroyale.go:103, teamshooter.go:116. -/
def matchId (name t : Str) (n : Nat) : Str :=
  "profile-".toList ++ name ++ "-time-".toList ++ t ++ "-num-".toList ++ fmtNat n

/-- `fmt.Sprintf("%v_roster%04d", matchName, matchNum)`: soloduel.go:94, battleroyale.go:84. -/
def rosterName (name : Str) (n : Nat) : Str := name ++ "_roster".toList ++ fmtNatPad 4 n

/-- `req.Name`: a nil request is dereferenced (soloduel.go:121, battleroyale.go:112,
teamshooter.go:129). -/
def reqName : Option Profile → Go Str
  | some p => some p.name
  | none => Go.panic

/-- Send one match and, if that works, go on: soloduel.go:126-138,
battleroyale.go:117-129, teamshooter.go:136-149.  A failed match is not in `sent`. -/
def emit (ok : Nat → Bool) (n : Nat) (m : Go Match) (next : Go RunRes) : Go RunRes :=
  m.bind fun m => if ok n then next.map fun r => { r with sent := m :: r.sent } else some ⟨[], true⟩

/-- The match extensions: soloduel.go:113-124, 129-133; battleroyale.go:104-115, 120-124. -/
def extensionsFor (name prof : Str) : GoMap AnyPb :=
  [("score".toList, anyInt32 100), ("mmfName".toList, anyString name), ("profileName".toList, anyString prof)]

/-- A match with one roster: soloduel.go:93-134, battleroyale.go:83-125; `now` is
`timestamppb.Now()`. -/
def oneRoster (name t : Str) (now : Nat → Timestamp) (req : Option Profile) (n : Nat) (ts : List Ticket) : Go Match :=
  (reqName req).map fun prof =>
    { id := matchId name t n
      rosters := [(rosterName name n,
        { name := rosterName name n, assignment := none, tickets := ts, extensions := [("CreationTime".toList, anyTime (now n))] })]
      extensions := extensionsFor name prof }

/-- Tickets of a pool: `pool.GetParticipants().GetTickets()` (nil-safe):
soloduel.go:74, battleroyale.go:76, teamshooter.go:97. -/
def participants (p : Option Pool) : List Ticket := ((p.bind (·.participants)).map (·.tickets)).getD []

/-- `req.GetPools()` (nil-safe). -/
def pools (req : Option Profile) : GoMap Pool := (req.map (·.pools)).getD []

/-! ## soloduel -/

/-- soloduel.go:43. -/
def soloName : Str := "a-simple-1v1-matchfunction".toList

/-- soloduel.go:44. -/
def tixPerMatch : Nat := 2

/-- soloduel.go:88-144, the loop over `tickets`; `r` is `rosterPlayers`.  Simplified:
tickets are non-nil (line 89 reads `ticket.Id`); what comes off the wire is. -/
def soloLoop (ok : Nat → Bool) (mk : Nat → List Ticket → Go Match) : List Ticket → List Ticket → Nat → Go RunRes
  | [], _, _ => some ⟨[], false⟩
  | t :: ts, r, n =>
    let r := r ++ [t]
    if r.length ≥ tixPerMatch then emit ok n (mk n r) (soloLoop ok mk ts [] (n + 1)) else soloLoop ok mk ts r n

/-- soloduel.go:66-147; `ord` is the iteration order of `req.GetPools()`. -/
def soloduel (ok : Nat → Bool) (t : Str) (now : Nat → Timestamp) (ord : GoMap Pool) (req : Option Profile) : Go RunRes :=
  soloLoop ok (oneRoster soloName t now req) (ord.flatMap fun e => participants (some e.2)) [] 0

/-! ## battleroyale -/

/-- battleroyale.go:31. -/
def brName : Str := "battle-royale".toList
/-- battleroyale.go:30. -/
def brPlayers : Nat := 100

/-- battleroyale.go:81-149. -/
def brLoop (ok : Nat → Bool) (mk : Nat → List Ticket → Go Match) (tickets : List Ticket) (i n : Nat) : Go RunRes :=
  if i + brPlayers ≤ tickets.length then
    emit ok n (mk n ((tickets.drop i).take brPlayers)) (brLoop ok mk tickets (i + brPlayers) (n + 1))
  else some ⟨[], false⟩
termination_by tickets.length - i
decreasing_by simp only [brPlayers] at *; omega

/-- battleroyale.go:67-152. -/
def battleroyale (ok : Nat → Bool) (t : Str) (now : Nat → Timestamp) (req : Option Profile) : Go RunRes :=
  brLoop ok (oneRoster brName t now req)
    (participants (GoMap.load (pools req) "competitive".toList)) 0 0

/-! ## teamshooter -/

/-- teamshooter.go:38. -/
def tsName : Str := "team-shooter-5v5-matchfunction".toList
/-- teamshooter.go:44. -/
def teamComp : List Str := ["tank".toList, "healer".toList, "dps".toList, "dps".toList, "dps".toList]
/-- teamshooter.go:40. -/
def maxNumMatches : Nat := 100000

/-- `poolRosterIndices`, `ticketsExhausted` and the tickets of the roster being filled
(teamshooter.go:74, 79, 92). -/
structure TsSt where
  idx : GoMap Nat
  exhausted : Bool
  tickets : List Ticket
  deriving DecidableEq

/-- teamshooter.go:97-109: one slot. -/
def fillSlot (pools : GoMap Pool) (s : TsSt) (ty : Str) : TsSt :=
  let ts := participants (pools.load ty)
  let i := (s.idx.load ty).getD 0
  match ts[i]? with
  | none => { s with exhausted := true }       -- lines 97-99
  | some t => { s with idx := s.idx.store ty (i + 1), tickets := s.tickets ++ [t] }

/-- teamshooter.go:88-110: one roster. -/
def fillTeam (pools : GoMap Pool) (idx : GoMap Nat) (ex : Bool) : TsSt :=
  teamComp.foldl (fillSlot pools) ⟨idx, ex, []⟩

/-- teamshooter.go:88: `"team" + fmt.Sprintf("%02d", i)`. -/
def teamName (i : Nat) : Str := "team".toList ++ fmtNatPad 2 i

/-- teamshooter.go:114-145; `t n` is the clock text at match `n`. -/
def twoTeams (t : Nat → Str) (now : Nat → Timestamp) (req : Option Profile) (n : Nat) (a b : List Ticket) : Go Match :=
  (reqName req).map fun prof =>
    { id := matchId tsName (t n) n
      rosters := [(teamName 1, ⟨teamName 1, none, a, []⟩), (teamName 2, ⟨teamName 2, none, b, []⟩)]
      extensions := extensionsFor tsName prof ++ [("creationTime".toList, anyTime (now n))] }

/-- teamshooter.go:83-152, the two teams (`numTeams`, line 39) unrolled; the first argument is `maxNumMatches - matchNum`. -/
def tsLoop (ok : Nat → Bool) (mk : Nat → List Ticket → List Ticket → Go Match) (pools : GoMap Pool) :
    Nat → Nat → GoMap Nat → Go RunRes
  | 0, _, _ => some ⟨[], false⟩
  | left + 1, n, idx =>
    let a := fillTeam pools idx false
    let b := fillTeam pools a.idx a.exhausted
    if b.exhausted then some ⟨[], false⟩     -- the loop condition ends it
    else emit ok n (mk n a.tickets b.tickets) (tsLoop ok mk pools left (n + 1) b.idx)

/-- teamshooter.go:66-155. -/
def teamshooter (ok : Nat → Bool) (t : Nat → Str) (now : Nat → Timestamp) (req : Option Profile) : Go RunRes :=
  tsLoop ok (twoTeams t now req) (pools req) maxNumMatches 0
    (teamComp.foldl (fun m ty => m.store ty 0) [])

/-! ## Run -/

/-- soloduel.go:62-65, battleroyale.go:63-66, teamshooter.go:62-65: on error the request is nil and `Run` carries on. -/
def withRequest (body : Option Profile → Go RunRes) (msgs : List ChunkedMmfRunRequest) : Go RunRes :=
  match getChunkedRequest msgs with
  | none => Go.panic
  | some (.err, _) => body none
  | some (.profile p, _) => body p

end OM.Mmf
