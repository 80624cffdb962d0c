import Verif.Model.MainLoop
/-!
# What the example's main loop logs

matchmaker-example/main.go:191-378, the lines of the level info and above that the loop writes in its own goroutine.  Left out:
those before the loop, those of `activateTickets` (C147), and the last words of a process that ends while it reads an answer.
-/
namespace OM.Loop
open OM.PJ

/-- matchmaker-example/main.go:342-344, the arguments. -/
structure CycleLine where
  number : Nat
  of : Nat
  received : Nat
  approved : Nat
  rejected : Nat
  error : Option Front.Status
  deriving DecidableEq

inductive Line where
  | complete                     -- matchmaker-example/main.go:235
  | failed (s : Front.Status)    -- matchmaker-example/main.go:240
  | unread                       -- matchmaker-example/main.go:317-319
  | cycle (l : CycleLine)        -- matchmaker-example/main.go:342
  | noMatches                    -- matchmaker-example/main.go:351
  | queued (n : Nat)             -- matchmaker-example/main.go:371
  | exiting                      -- matchmaker-example/main.go:378
  deriving DecidableEq

/-- The variable `err` that matchmaker-example/main.go:344 prints: that of :162, which is nil after :164.  The errors of the
call are in other variables of that name, declared at :226, :261, :268, :279 and :294 in inner blocks. -/
def errAtStatus (_recv : Option Front.Status) : Option Front.Status := none

/-- matchmaker-example/main.go:226-338: while the answer is taken; `recv` is the error of `Recv`, none for io.EOF. -/
def answerLines (e : Env) (recv : Option Front.Status) : Invoked → List Line
  | .grpc none => []
  | .grpc (some _) => [match recv with | none => .complete | some s => .failed s]
  | .rest none => []
  | .rest (some (_, body)) =>
    ((Mm.readStream (body.length + 1) body).getD []).filterMap fun t =>
      match unmarshal (asMmfResponse e) (t.flatMap fun c => Json.appendRune c.toNat) with
      | none => some .unread
      | some _ => none

/-- matchmaker-example/main.go:192-378: one cycle, up to the call of `activateTickets`; `n` is -cycles.  A cycle whose answer
ends the process, or which blocks at :366, writes nothing further. -/
def cycleLines (e : Env) (junk : Str → Option Match) (ignoreEmpty : Bool) (n : Nat) (s : St) (c : Cycle)
    (recv : Option Front.Status) : List Line :=
  match received e junk c.answer with
  | none => []
  | some ms =>
    let j := Mm.judge c.draws 0 ms
    answerLines e recv c.answer ++
      .cycle ⟨n + 1 - s.left, n, j.1.length + j.2.length, j.1.length, j.2.length, errAtStatus recv⟩ ::
      (if j.1.length + j.2.length = 0 then
        if !ignoreEmpty && decide (s.emptyCycles ≥ 3) then [.noMatches, .exiting] else []
      else
        match Mm.requeue s.queue (Mm.rejectedIds c.ord j.2) with
        | none => []
        | some _ => [.queued (Mm.rejectedIds c.ord j.2).length])

/-- What a step writes. -/
def stepLines (e : Env) (junk : Str → Option Match) (f : Flags) (s : St) : Lbl × Option Front.Status → List Line
  | (.cycle c, recv) => cycleLines e junk f.ignoreEmpty f.cycles.toNat s c recv
  | (.stop, _) => [.exiting]
  | _ => []

/-- The lines of an execution; every step comes with the error that `Recv` returned in it, if any. -/
def lines (e : Env) (junk : Str → Option Match) (f : Flags) (s : St) : List (Lbl × Option Front.Status) → List Line
  | [] => []
  | l :: ls =>
    match s.step e junk f.ignoreEmpty l.1 with
    | none => []
    | some s' => stepLines e junk f s l ++ lines e junk f s' ls

/-- matchmaker-example/main.go:342: the text; `%02d` pads with zeros to two digits, `%v` of a nil error is `<nil>`, `said` is the text of another. -/
def cycleText (said : Front.Status → Str) (l : CycleLine) : Str :=
  fmtNatPad 2 l.number ++ "/".toList ++ fmtNatPad 2 l.of ++ " Invokingmmfs complete, ".toList ++ fmtNat l.received ++ " matches received, ".toList ++
    fmtNat l.approved ++ " approved ".toList ++ fmtNat l.rejected ++ " rejected, error: ".toList ++
    (match l.error with | none => "<nil>".toList | some s => said s)

end OM.Loop
