import Verif.Model.Filter
import Verif.Model.Logging
/-!
# The repository's own test cases, run on the model

core/internal/filter/testcases/testcases.go, core/internal/filter/filter_test.go:63-103 and
core/internal/logging/logging_test.go.  These are tests of the model, not proofs about
the code.  They show that the model computes what the cases describe, and where the cases
contradict the code:

* filter_test.go:35-39 reports an error when a ticket of `IncludedTestCases` IS in the
  pool, so that test fails on the first case against any reasonable `In`;
* the cases with a nil ticket and a double-range or string filter make `In` panic;
* of the creation-time cases with a nil ticket (whose creation time reads as 1970), most
  assume `now` as the creation time; they are listed with what the code computes.
-/
namespace OM.Conformance

def f0 : F64 := 0x0000000000000000
def f1 : F64 := 0x3FF0000000000000
def fm1 : F64 := 0xBFF0000000000000
def f2 : F64 := 0x4000000000000000
def f3 : F64 := 0x4008000000000000
def f5 : F64 := 0x4014000000000000
def f10 : F64 := 0x4024000000000000
def f11 : F64 := 0x4026000000000000
def inf : F64 := 0x7FF0000000000000
def minf : F64 := 0xFFF0000000000000
def nan : F64 := 0x7FF8000000000001

def pool : Pool := ⟨[], [], [], [], none, none, []⟩
def ticket (a : FilterableData) : Ticket := ⟨[], none, some a, []⟩
def attrs : FilterableData := ⟨[], [], [], none⟩

/-- testcases.go:410-431 `simpleDoubleRange`, run. -/
def simpleDoubleRange (c : F64 × F64 × F64 × Int) : Go Bool :=
  Filter.In (some { pool with doubleRangeFilters := [⟨"field".toList, c.2.1, c.2.2.1, c.2.2.2⟩] })
    (some (ticket { attrs with doubleArgs := [("field".toList, c.1)] }))

/-- testcases.go:45-66. -/
def includedRanges : List (F64 × F64 × F64 × Int) :=
  [(f5, f0, f10, excludeNone), (f5, f0, f10, excludeMin), (f5, f0, f10, excludeMax),
   (f5, f0, f10, excludeBoth), (f5, f5, f5, excludeNone),
   (inf, f0, inf, excludeNone), (inf, f0, inf, excludeMin),
   (minf, minf, f0, excludeNone), (minf, minf, f0, excludeMax),
   (f0, f0, f1, excludeNone), (f1, f0, f1, excludeNone), (f1, f0, f1, excludeMin),
   (f0, f0, f1, excludeMax), (f2, f0, f3, excludeBoth), (f1, f0, f3, excludeBoth)]

/-- testcases.go:229-282. -/
def excludedRanges : List (F64 × F64 × F64 × Int) :=
  [(f5, f5, f5, excludeMin), (f5, f5, f5, excludeMax), (f5, f5, f5, excludeBoth)]
  ++ ([(fm1, f0, f10), (f11, f0, f10), (f5, nan, f10), (f5, f0, nan), (f5, nan, nan),
       (nan, f0, f10), (nan, minf, inf), (nan, nan, nan)].flatMap fun (v, lo, hi) =>
        [excludeNone, excludeMin, excludeMax, excludeBoth].map fun b => (v, lo, hi, b))
  ++ [(inf, f0, inf, excludeMax), (inf, f0, inf, excludeBoth),
      (minf, minf, f0, excludeMin), (minf, minf, f0, excludeBoth),
      (f1, f0, f1, excludeMax), (f0, f0, f1, excludeMin),
      (f0, f0, f1, excludeBoth), (f1, f0, f1, excludeBoth)]

example : includedRanges.map simpleDoubleRange = includedRanges.map fun _ => some true := by
  decide +kernel
example : excludedRanges.map simpleDoubleRange = excludedRanges.map fun _ => some false := by
  decide +kernel

/-- testcases.go:39-43 "no filters or fields". -/
example : Filter.In (some pool) (some ⟨[], none, none, []⟩) = some true := by decide +kernel

/-- testcases.go:68-85, 284-320: string equality, case, missing field. -/
def stringCase (k v fk fv : String) : Go Bool :=
  Filter.In (some { pool with stringEqualsFilters := [⟨fk.toList, fv.toList⟩] })
    (some (ticket { attrs with stringArgs := [(k.toList, v.toList)] }))

example : stringCase "field" "value" "field" "value" = some true := by decide +kernel
example : stringCase "field" "value" "field" "VALUE" = some false := by decide +kernel
example : stringCase "otherfield" "othervalue" "field" "value" = some false := by decide +kernel

/-- testcases.go:87-127, 322-362: tags. -/
def tagCase (tags want : List String) : Go Bool :=
  Filter.In (some { pool with tagPresentFilters := want.map fun t => ⟨t.toList⟩ })
    (some (ticket { attrs with tags := tags.map (·.toList) }))

example : tagCase ["mytag"] ["mytag"] = some true := by decide +kernel
example : tagCase ["A", "B", "C"] ["A", "C", "B"] = some true := by decide +kernel
example : tagCase ["MYTAG"] ["mytag"] = some false := by decide +kernel
example : tagCase ["A", "B", "C"] ["A", "D", "C"] = some false := by decide +kernel

/-- testcases.go:209-227 "double range missing field". -/
example : Filter.In
    (some { pool with doubleRangeFilters := [⟨"field".toList, minf, inf, excludeNone⟩] })
    (some (ticket { attrs with doubleArgs := [("otherfield".toList, f0)] })) = some false := by
  decide +kernel

/-- testcases.go:173-207: nil tickets.  "no FilterableData Attributes" panics for the
double-range and the string filter and excludes for the tag filter. -/
example : Filter.In
    (some { pool with doubleRangeFilters := [⟨"field".toList, minf, inf, excludeNone⟩] })
    none = none := by decide +kernel
example : Filter.In
    (some { pool with stringEqualsFilters := [⟨"field".toList, "value".toList⟩] }) none = none := by
  decide +kernel
example : Filter.In (some { pool with tagPresentFilters := [⟨"value".toList⟩] }) none
    = some false := by decide +kernel

/-- testcases.go:435-497 `multipleFilters`: 2009-11-17T20:34:58.651387237Z in, 1909 out, of
the range from 2000 to 2024. -/
def multipleFilters (dbl str tag cre : Bool) : Go Bool :=
  Filter.In
    (some { pool with
      doubleRangeFilters := [⟨"a".toList, fm1, f1, excludeNone⟩]
      stringEqualsFilters := [⟨"b".toList, "hi".toList⟩]
      tagPresentFilters := [⟨"yo".toList⟩]
      creationTimeRangeFilter :=
        some ⟨some ⟨974493298, 651387237⟩, some ⟨1731875698, 651387237⟩, 0⟩ })
    (some (ticket ⟨[(if tag then "yo" else "cya").toList],
      [("b".toList, (if str then "hi" else "bye").toList)],
      [("a".toList, if dbl then f0 else f10)],
      some ⟨if cre then 1258490098 else -1897269902, 651387237⟩⟩))

/-- The four excluded cases (testcases.go:403-406). -/
example : [multipleFilters false true true true, multipleFilters true false true true,
    multipleFilters true true false true, multipleFilters true true true false]
    = [some false, some false, some false, some false] := by decide +kernel

/-- testcases.go:129, listed as included, is excluded by the code: the range has its start
before its end (C02). -/
example : multipleFilters true true true true = some false := by decide +kernel

/-- testcases.go:131-164 and 364-401: a nil ticket reads as created at the epoch; `h` hours
are added to `now`. -/
def timeCase (now : Int) (start stop : Option Int) : Go Bool :=
  let ts := fun h : Int => (⟨now + 3600 * h, 0⟩ : Timestamp)
  Filter.In (some { pool with
    creationTimeRangeFilter := some ⟨start.map ts, stop.map ts, 0⟩ }) none

/-- "positive" cases: none is in the pool; the last one (no filter) is. -/
example : [timeCase 1700000000 (some 1) none, timeCase 1700000000 (some (-1)) none,
    timeCase 1700000000 (some 1) (some (-1)), Filter.In (some pool) none]
    = [some false, some false, some false, some true] := by decide +kernel

/-- "negative" cases: all are out, as listed. -/
example : [timeCase 1700000000 (some (-1)) none, timeCase 1700000000 none (some 1),
    timeCase 1700000000 (some 2) (some 1), timeCase 1700000000 (some (-1)) (some (-2))]
    = [some false, some false, some false, some false] := by decide +kernel

/-- filter_test.go:65-88: both invalid filters are refused with the expected texts. -/
example : Filter.validatePoolFilters
    (some { pool with creationTimeRangeFilter := some ⟨some ⟨0, -1⟩, none, 0⟩ })
    = some ".invalid creation time filter start value" := by decide +kernel
example : Filter.validatePoolFilters
    (some { pool with creationTimeRangeFilter := some ⟨none, some ⟨0, -1⟩, 0⟩ })
    = some ".invalid creation time filter end value" := by decide +kernel

/-- logging_test.go:28-46. -/
example : ["", "json", "stackdriver", "text"].map (fun s => Log.newFormatter Log.lowerAscii s.toList)
    = [.text, .json, .stackdriver, .text] := by decide +kernel

/-- logging_test.go:48-69. -/
example : [Log.Level.trace, .debug, .info, .warn, .error, .fatal, .panic].map Log.isDebugLevel
    = [true, true, false, false, false, false, false] := by decide +kernel

/-- logging_test.go:71-94. -/
example : ["trace", "debug", "info", "warn", "warning", "error", "fatal", "panic", "info", "",
      "nothing"].map (fun s => Log.toLevel Log.lowerAscii s.toList)
    = [.trace, .debug, .info, .warn, .warn, .error, .fatal, .panic, .info, .info, .info] := by
  decide +kernel

end OM.Conformance
