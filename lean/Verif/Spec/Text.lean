import Verif.Model.Proto
/-! # Unicode text -/
namespace OM.Spec

/-- The UTF-8 bytes of a Unicode character (Lean's `String.utf8EncodeChar`). -/
def charBytes (c : Char) : Str := (String.utf8EncodeChar c).map fun b => Char.ofNat b.toNat

/-- A Go string that holds the UTF-8 encoding of a text. -/
def IsText (s : Str) : Prop := ∃ text : List Char, s = text.flatMap charBytes

/-- The texts in a map of extensions: its keys and the type URLs. -/
def extTexts (m : GoMap AnyPb) : List Str := m.flatMap fun e => [e.1, e.2.typeUrl]

/-- The texts among the attributes of a ticket: tags, the names of the arguments, and the
values of the string arguments. -/
def dataTexts (d : FilterableData) : List Str :=
  d.tags ++ d.stringArgs.flatMap (fun e => [e.1, e.2]) ++ d.doubleArgs.map (·.1)

/-- Every text a client puts into a ticket (the id is not the client's to choose). -/
def ticketTexts (t : Ticket) : List Str := (t.attributes.elim [] dataTexts) ++ extTexts t.extensions

def assignmentTexts (a : Assignment) : List Str := a.connection :: extTexts a.extensions

/-- Maps have distinct keys and `bytes` fields hold bytes: true of every Go message. -/
structure GoExtensions (m : GoMap AnyPb) : Prop where
  keys : (m.map (·.1)).Nodup
  bytes : ∀ e ∈ m, ∀ c ∈ e.2.value, c.toNat < 256

structure GoData (d : FilterableData) : Prop where
  stringArgs : (d.stringArgs.map (·.1)).Nodup
  doubleArgs : (d.doubleArgs.map (·.1)).Nodup

structure GoTicket (t : Ticket) : Prop where
  attributes : ∀ d, t.attributes = some d → GoData d
  extensions : GoExtensions t.extensions

/-! ## The messages between om-core and MMFs -/

def rosterTexts (r : Roster) : List Str :=
  r.name :: (r.assignment.elim [] assignmentTexts ++ r.tickets.flatMap (fun t => t.id :: ticketTexts t) ++ extTexts r.extensions)

def poolTexts (p : Pool) : List Str :=
  p.name :: (p.tagPresentFilters.map (·.tag) ++ p.stringEqualsFilters.flatMap (fun f => [f.stringArg, f.value]) ++
    p.doubleRangeFilters.map (·.doubleArg) ++ p.participants.elim [] rosterTexts ++ extTexts p.extensions)

def profileTexts (p : Profile) : List Str :=
  p.name :: (p.pools.flatMap (fun e => e.1 :: poolTexts e.2) ++ extTexts p.extensions)

def matchTexts (m : Match) : List Str :=
  m.id :: (m.rosters.flatMap (fun e => e.1 :: rosterTexts e.2) ++ extTexts m.extensions)

/-- The numbers of a timestamp fit their fields (int64, int32). -/
def GoTime (t : Timestamp) : Prop := (-2 ^ 63 ≤ t.seconds ∧ t.seconds < 2 ^ 63) ∧ -2 ^ 31 ≤ t.nanos ∧ t.nanos < 2 ^ 31

def GoInt32 (v : Int) : Prop := -2 ^ 31 ≤ v ∧ v < 2 ^ 31

structure GoSentTicket (t : Ticket) : Prop extends GoTicket t where
  expiration : ∀ x, t.expirationTime = some x → GoTime x
  creation : ∀ d x, t.attributes = some d → d.creationTime = some x → GoTime x

structure GoRoster (r : Roster) : Prop where
  assignment : ∀ a, r.assignment = some a → GoExtensions a.extensions
  tickets : ∀ t ∈ r.tickets, GoSentTicket t
  extensions : GoExtensions r.extensions

structure GoPool (p : Pool) : Prop where
  doubles : ∀ f ∈ p.doubleRangeFilters, GoInt32 f.bounds
  times : ∀ f, p.creationTimeRangeFilter = some f →
    GoInt32 f.bounds ∧ (∀ x, f.start = some x → GoTime x) ∧ ∀ x, f.stop = some x → GoTime x
  participants : ∀ r, p.participants = some r → GoRoster r
  extensions : GoExtensions p.extensions

structure GoProfile (p : Profile) : Prop where
  keys : (p.pools.map (·.1)).Nodup
  pools : ∀ e ∈ p.pools, GoPool e.2
  extensions : GoExtensions p.extensions

structure GoMatch (m : Match) : Prop where
  keys : (m.rosters.map (·.1)).Nodup
  rosters : ∀ e ∈ m.rosters, GoRoster e.2
  extensions : GoExtensions m.extensions

/-- The code points with Unicode's White_Space property. -/
def whiteSpace : List Nat :=
  [0x9, 0xA, 0xB, 0xC, 0xD, 0x20, 0x85, 0xA0, 0x1680, 0x2000, 0x2001, 0x2002, 0x2003, 0x2004, 0x2005, 0x2006, 0x2007, 0x2008,
   0x2009, 0x200A, 0x2028, 0x2029, 0x202F, 0x205F, 0x3000]

def White (c : Char) : Prop := c.toNat ∈ whiteSpace

end OM.Spec
