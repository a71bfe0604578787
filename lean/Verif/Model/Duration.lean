import Verif.Model.JsonText
/-
utils/utils.go `SlotsToTime` and the library behind it.
-/
namespace Verif
open JsonText

/-- hako/durafmt durafmt.go `unitStr`, `durationMap`: the units in the order in which they are tried, with their lengths
in microseconds and their names. -/
def durUnits : List (Int × Str × Str) :=
  [(365 * 24 * 3600 * 1000000, b!"year", b!"years"), (7 * 24 * 3600 * 1000000, b!"week", b!"weeks"),
    (24 * 3600 * 1000000, b!"day", b!"days"), (3600 * 1000000, b!"hour", b!"hours"),
    (60 * 1000000, b!"minute", b!"minutes"), (1000000, b!"second", b!"seconds"),
    (1000, b!"millisecond", b!"milliseconds"), (1, b!"microsecond", b!"microseconds")]

/-- hako/durafmt durafmt.go `Format`: the number of each unit, and the unit, a space behind each; units of which there
are none are left out. Go divides towards zero. -/
def durBody : Int → List (Int × Str × Str) → Str
  | _, [] => []
  | r, (k, one, many) :: us =>
    (if 1 < r.tdiv k then intText (r.tdiv k) ++ 32 :: (many ++ [32])
      else if r.tdiv k = 1 then intText (r.tdiv k) ++ 32 :: (one ++ [32])
      else []) ++ durBody (r - r.tdiv k * k) us

/-- strings.TrimSpace, of the spaces only: the texts above have no other white space.
/repo: utils/utils.go:89-94 (`durafmt`) -/
def trimSpace (s : Str) : Str := ((s.dropWhile (· == 32)).reverse.dropWhile (· == 32)).reverse

/-- hako/durafmt durafmt.go `Parse(d).String()` of a `time.Duration` in nanoseconds. The library is written down from its
documentation and source as known, version 5c1018a4e16b of go.mod; it is not part of the repository. -/
def durafmt (d : Int) : Str :=
  if d = 0 then b!"0 seconds"
  else if d < 0 then trimSpace (45 :: durBody ((i64 (-d)).tdiv 1000) durUnits)
  else trimSpace (durBody (d.tdiv 1000) durUnits)

/-- utils/utils.go:89-94 `SlotsToTime`, given the product of its arguments, a `uint64`. The conversion to `time.Duration`
and the product with `time.Second` are done in 64 bits. -/
def durationText (seconds : Nat) : Str := durafmt (i64 (i64 seconds * 1000000000))

end Verif
