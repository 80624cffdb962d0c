import Verif.Model.Cache
/-!
# WatchAssignments (core/main.go:805-872)

The handler and its goroutines as a transition system; the assignments map, the clock
and the schedule are arbitrary.  Not modelled: the stream's context (the handler
ignores it) and logging.
-/
namespace OM.Watch

/-! ## `strconv.ParseInt(s, 0, 64)` (:841) -/

/-- strconv/atoi.go `lower`, used on letters only. -/
def lowerIs (c l u : Char) : Bool := c = l || c = u

/-- strconv/atoi.go:ParseUint, base 0: the base and the digits after the prefix. -/
def base0 : Str → Nat × Str
  | '0' :: c :: d :: cs =>
    if lowerIs c 'b' 'B' then (2, d :: cs)
    else if lowerIs c 'o' 'O' then (8, d :: cs)
    else if lowerIs c 'x' 'X' then (16, d :: cs)
    else (8, c :: d :: cs)
  | '0' :: cs => (8, cs)
  | s => (10, s)

/-- strconv/atoi.go `underscoreOK`, the loop: `i` is the last thing seen. -/
def underscoreLoop (hex : Bool) : Str → Char → Bool
  | [], i => i ≠ '_'
  | c :: cs, i =>
    if c.isDigit || (hex && (('a' ≤ c && c ≤ 'f') || ('A' ≤ c && c ≤ 'F'))) then underscoreLoop hex cs '0'
    else if c = '_' then if i ≠ '0' then false else underscoreLoop hex cs '_'
    else if i = '_' then false
    else underscoreLoop hex cs '!'

/-- strconv/atoi.go `underscoreOK` (its argument has no sign here). -/
def underscoreOK : Str → Bool
  | '0' :: c :: cs =>
    if lowerIs c 'b' 'B' || lowerIs c 'o' 'O' || lowerIs c 'x' 'X' then underscoreLoop (lowerIs c 'x' 'X') cs '0'
    else underscoreLoop false ('0' :: c :: cs) '^'
  | s => underscoreLoop false s '^'

/-- `strconv.ParseUint(s, 0, 64)`. -/
def parseUint0 (s : Str) : UintRes :=
  if s = [] then .syntaxErr
  else
    match parseUintLoop (base0 s).1 true (base0 s).2 0 false with
    | .ok v us => if us && !underscoreOK s then .syntaxErr else .ok v us
    | r => r

/-- `strconv.ParseInt(s, 0, 64)`. -/
def parseInt0 : Str → ParseRes
  | [] => .syntaxErr
  | c :: cs => signedOf (c = '-') (parseUint0 (if c = '+' ∨ c = '-' then cs else c :: cs))

/-! ## The timeout (:814, :840-859) -/

def clamp64 (x : Int) : Int := max minInt64 (min maxInt64 x)

/-- time/time.go: seconds from year 1 to 1970. -/
def unixToInternal : Int := 62135596800

/-- :841-845 `time.Unix(x, 0)` in nanoseconds since 1970; the addition inside wraps. -/
def ctimeOf (id : Str) : Int :=
  (wrap64 ((parseInt0 (splitFirst '-' id)).value + unixToInternal) - unixToInternal) * nsPerSec

/-- :814 and :847-850. -/
def newest (now0 : Int) (ids : List Str) : Int :=
  ids.foldl (fun acc id => if ctimeOf id > acc then ctimeOf id else acc) now0

/-- :859 `time.After(time.Until(newest.Add(TTL)))` evaluated at `now1`: when the timer
fires.  `time.Until` saturates.  Simplification: `Add` is exact (it saturates only at
the ends of the int64 range of seconds). -/
def fireAt (ttl now0 now1 : Int) (ids : List Str) : Int :=
  now1 + clamp64 (newest now0 ids + goSecs ttl - now1)

/-! ## The goroutines -/

/-- A polling goroutine (:822-838): polling, at the channel send with what it loaded, or
returned. -/
inductive Pc where
  | poll | send (a : Assignment) | done
  deriving DecidableEq

structure Goro where
  id : Str
  pc : Pc
  deriving DecidableEq

/-- The handler: starting goroutines (`k` started, :818-851), in the select of iteration `i`
(:860-869), inside `stream.Send` in iteration `i`, or returned (with `updateChan` closed,
:816). -/
inductive Main where
  | starting (k : Nat) | select (i : Nat) | sending (i : Nat) (r : Str × Assignment) | returned (timedOut : Bool)
  deriving DecidableEq

/-- `cache` is `tc.Assignments`, `hist` all its values since the call began; `gauge` what
the call has added to `AssignmentWatches`; `fire` when the timer fires, once set. -/
structure St where
  now : Int
  cache : GoMap Assignment
  hist : List (GoMap Assignment)
  gos : List Goro
  main : Main
  fire : Int
  sent : List (Str × Assignment)
  gauge : Int
  crashed : Bool
  deriving DecidableEq

def init (now : Int) (cache : GoMap Assignment) : St :=
  { now := now, cache := cache, hist := [cache], gos := [], main := .starting 0, fire := 0, sent := [], gauge := 0, crashed := false }

inductive Label where
  | tick (t : Int)                    -- the clock shows `t`
  | cacheSet (c : GoMap Assignment)   -- the incoming queue changed the map
  | launch                            -- :818-838
  | begin                             -- :852-859
  | poll (j : Nat)                    -- :824
  | take (j : Nat)                    -- :828/:862 rendezvous
  | sent                              -- :864 stream.Send returns
  | timeout                           -- :865-867
  | finish                            -- :871
  | crash (j : Nat)                   -- :828 on the closed channel

/-- One step; `now0` is the time the call began. -/
def step (cfg : Config) (now0 : Int) (ids : List Str) (s : St) (l : Label) : Option St :=
  if s.crashed then none else
  match l with
  | .tick t => if s.now ≤ t then some { s with now := t } else none
  | .cacheSet c => some { s with cache := c, hist := s.hist ++ [c] }
  | .launch =>
    match s.main with
    | .starting k =>
      match ids[k]? with
      | some id => some { s with gos := s.gos ++ [⟨id, .poll⟩], main := .starting (k + 1) }
      | none => none
    | _ => none
  | .begin =>
    match s.main with
    | .starting k =>
      if k = ids.length then
        some { s with main := .select 0, gauge := s.gauge + ids.length, fire := fireAt cfg.ttl now0 s.now ids }
      else none
    | _ => none
  | .poll j =>
    match s.gos[j]? with
    | some g =>
      if g.pc = .poll then
        match s.cache.load g.id with
        | some a => some { s with gos := s.gos.set j { g with pc := .send a } }
        | none => none        -- sleeps a second and tries again: no change
      else none
    | none => none
  | .take j =>
    match s.main, s.gos[j]? with
    | .select i, some g =>
      match g.pc with
      | .send a =>
        if i < ids.length then
          some { s with gos := s.gos.set j { g with pc := .done }, main := .sending i (g.id, a), gauge := s.gauge - 1 }
        else none
      | _ => none
    | _, _ => none
  | .sent =>
    match s.main with
    | .sending i r => some { s with main := .select (i + 1), sent := s.sent ++ [r] }
    | _ => none
  | .timeout =>
    match s.main with
    | .select i =>
      if i < ids.length ∧ s.fire ≤ s.now then
        some { s with main := .returned true, gauge := s.gauge + ((ids.length : Int) - i) }
      else none
    | _ => none
  | .finish =>
    match s.main with
    | .select i => if i = ids.length then some { s with main := .returned false } else none
    | _ => none
  | .crash j =>
    match s.main, s.gos[j]? with
    | .returned _, some g =>
      match g.pc with
      | .send _ => some { s with crashed := true }
      | _ => none
    | _, _ => none

def run (cfg : Config) (now0 : Int) (ids : List Str) : St → List Label → Option St
  | s, [] => some s
  | s, l :: ls => (step cfg now0 ids s l).bind fun s' => run cfg now0 ids s' ls

end OM.Watch
