import Verif.Model.Go
/-!
# The example matchmaker

matchmaker-example/main.go: `activateTickets` as a state machine whose scheduler (and
the producers that fill the channel concurrently, lines 605-608) are a list of labels;
the main loop's bookkeeping; the reader of the streamed HTTP response.
-/
namespace OM.Mm

/-- matchmaker-example/main.go:100. -/
def maxActivationsPerCall : Nat := 500

/-- matchmaker-example/main.go:189, 593. -/
def chanCap : Nat := 10000

/-! ## activateTickets -/

/-- A goroutine started at line 418: created, between `Add` and `Done`, finished. -/
inductive GPhase where
  | created
  | calling
  | finished
  deriving DecidableEq

/-- Where `activateTickets` is: the outer condition (391), the inner loop (395), the
`if` after it (410), `Wait` (480), returned. -/
inductive Pc where
  | outer
  | collect
  | send
  | wait
  | returned
  deriving DecidableEq

structure St where
  queue : List Str              -- `ticketIdsToActivate`
  acc : List Str                -- `ticketsAwaitingActivation`
  done : Bool
  pc : Pc
  calls : List (List Str)       -- the request of each goroutine, in the order started
  phases : List GPhase          -- of those goroutines
  wg : Nat                      -- `activationWg`
  deriving DecidableEq

/-- Lines 387-390. -/
def St.init (queue : List Str) : St := ⟨queue, [], false, .outer, [], [], 0⟩

/-- One step of `activateTickets` itself; `none` where it blocks. -/
def St.main (s : St) : Option St :=
  match s.pc with
  | .outer =>                                                            -- 391, 394
    if s.acc.length = maxActivationsPerCall ∨ s.done = false then some { s with acc := [], pc := .collect }
    else some { s with pc := .wait }
  | .collect =>
    if s.done then some { s with pc := .send }                           -- 395
    else
      match s.queue with
      | tid :: q =>                                                      -- 397-403
        let acc := s.acc ++ [tid]
        some { s with queue := q, acc := acc, done := decide (acc.length = maxActivationsPerCall) }
      | [] => some { s with done := true }                               -- 404-405
  | .send =>                                                             -- 410-475
    if 0 < s.acc.length then
      some { s with
        done := if s.acc.length = maxActivationsPerCall then false else s.done
        calls := s.calls ++ [s.acc]
        phases := s.phases ++ [.created]
        pc := .outer }
    else some { s with pc := .outer }
  | .wait => if s.wg = 0 then some { s with pc := .returned } else none  -- 480
  | .returned => none

/-- `push`: a producer sends on the channel (blocked when full).  `begin i`: goroutine
`i` reaches line 433 and starts its call.  `finish i`: its call ended, with or without
an error, and the deferred `Done` ran (434). -/
inductive Lbl where
  | main
  | push (id : Str)
  | begin (i : Nat)
  | finish (i : Nat)
  deriving DecidableEq

def St.step (s : St) : Lbl → Option St
  | .main => s.main
  | .push id => if s.queue.length < chanCap then some { s with queue := s.queue ++ [id] } else none
  | .begin i =>
    if s.phases[i]? = some .created then some { s with phases := s.phases.set i .calling, wg := s.wg + 1 } else none
  | .finish i =>
    if s.phases[i]? = some .calling then some { s with phases := s.phases.set i .finished, wg := s.wg - 1 } else none

def St.run (s : St) : List Lbl → Option St
  | [] => some s
  | l :: ls => (s.step l).bind fun s => s.run ls

/-! ## The main loop -/

/-- Lines 362-370: sends on the channel while nobody receives; `none`: blocked for ever. -/
def requeue (queue : List Str) : List Str → Option (List Str)
  | [] => some queue
  | id :: ids => if queue.length < chanCap then requeue (queue ++ [id]) ids else none

/-- Why the loop of lines 191-376 ended. -/
inductive Exit where
  | budget      -- `i > 0` failed
  | empty       -- the `break` of line 352
  deriving DecidableEq

/-- Lines 188-376, `emptyCycles` bookkeeping only: `matches i` is the number of matches
received in cycle `i` (from 0), `left` the cycles left.  Returns the number of cycles
run and why the loop ended. -/
def cycles (ignoreEmpty : Bool) (received : Nat → Nat) : Nat → Nat → Nat → Nat × Exit
  | 0, i, _ => (i, .budget)
  | left + 1, i, emptyCycles =>
    if received i = 0 then
      if !ignoreEmpty && decide (emptyCycles ≥ 3) then (i + 1, .empty)
      else cycles ignoreEmpty received left (i + 1) (emptyCycles + 1)
    else cycles ignoreEmpty received left (i + 1) 0

/-! ## Reading the HTTP stream -/

/-- `isSpace` of Go's fmt/scan.go. -/
def isSpace (c : Char) : Bool :=
  let n := c.toNat
  (9 ≤ n && n ≤ 13) || n == 32 || n == 0x85 || n == 0xa0 || n == 0x1680 || (0x2000 ≤ n && n ≤ 0x200a)
    || n == 0x2028 || n == 0x2029 || n == 0x202f || n == 0x205f || n == 0x3000

/-- What `fmt.Fscanf(body, "%s\n", &msg)` does: EOF at the start, an error, or a word
and the rest of the input. -/
inductive ScanRes where
  | eof
  | err
  | word (w rest : Str)
  deriving DecidableEq

/-- Blanks before a verb; a newline there is an error (`SkipSpace`, fmt/scan.go). -/
def skipBlanks : Str → Option Str
  | [] => some []
  | c :: cs => if c = '\n' then none else if isSpace c then skipBlanks cs else some (c :: cs)

/-- The newline of the format: blanks, then a newline or the end of the input. -/
def expectNewline : Str → Option Str
  | [] => some []
  | c :: cs => if c = '\n' then some cs else if isSpace c then expectNewline cs else none

def fscanf (s : Str) : ScanRes :=
  match skipBlanks s with
  | none => .err
  | some [] => .eof
  | some s =>
    match expectNewline (s.dropWhile fun c => !isSpace c) with
    | none => .err
    | some rest => .word (s.takeWhile fun c => !isSpace c) rest

/-- `msg[10:(len(msg) - 1)]`, line 312; panics on a shorter message. -/
def trim (msg : Str) : Go Str := if 11 ≤ msg.length then some ((msg.drop 10).take (msg.length - 11)) else Go.panic

/-- Lines 290-337: the texts handed to `protojson.Unmarshal`; `none`: `Fatalf` (301) or
a panic (312).  `fuel` only makes the recursion structural: each round consumes input,
so the length of the input suffices. -/
def readStream : Nat → Str → Option (List Str)
  | 0, _ => none
  | fuel + 1, body =>
    match fscanf body with
    | .eof => some []
    | .err => none
    | .word w rest => (trim w).bind fun t => (readStream fuel rest).map (t :: ·)

/-- `{"result":`. -/
def resultPrefix : Str := ['{', '"', 'r', 'e', 's', 'u', 'l', 't', '"', ':']

/-- The gateway's framing: `{"result":` text `}` newline. -/
def envelope (json : Str) : Str := resultPrefix ++ json ++ ['}', '\n']

end OM.Mm
