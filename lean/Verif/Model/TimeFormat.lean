import Verif.Np

/-!
# Model of `frmt_time` (utils.py 233-279)

The strings are represented by the printed numbers and the form in which they are printed; the
zero padding of the numbers and the padding of the string to `width` are not modelled.
-/

set_option autoImplicit false

namespace Lattpy

/-- The forms of a time string with the printed numbers, utils.py 249-275. -/
inductive TimeText (K : Type*) where
  /-- `"00:00"` -/
  | zero
  /-- `mins:secs` of the short form -/
  | shortMinutes (mins secs : K)
  /-- `hours:mins` followed by `h` -/
  | shortHours (hours mins : K)
  /-- microseconds -/
  | micros (value : K)
  /-- milliseconds -/
  | millis (value : K)
  /-- seconds -/
  | secs (value : K)
  /-- `mins:secs` followed by `min` -/
  | minutes (mins secs : K)
  /-- `hours:mins:secs` followed by `h` -/
  | hours (hours mins secs : K)

variable {K : Type*} [Field K] [LinearOrder K] [FloorRing K]

/-- `divmod(x, 60)`, used in utils.py 254-275. -/
def divmod60 (x : K) : K × K := ((⌊x / 60⌋ : K), x - 60 * (⌊x / 60⌋ : K))

/-- `frmt_time(seconds, short)`, utils.py 233-279.  A number printed with `n` decimals is
`npRound n`. -/
def frmtTime (seconds : K) (short : Bool) : TimeText K :=
  if short then
    if 0 < seconds then
      let (mins, secs) := divmod60 seconds
      if 60 < mins then
        let (hours, mins) := divmod60 mins
        .shortHours (npRound 0 hours) (npRound 0 mins)
      else .shortMinutes (npRound 0 mins) (npRound 0 secs)
    else .zero
  else if seconds < 1 / 1000 then .micros (npRound 0 (10 ^ 6 * seconds))
  else if seconds < 1 then .millis (npRound 1 (1000 * seconds))
  else if seconds < 60 then .secs (npRound 1 seconds)
  else
    let (mins, seconds) := divmod60 seconds
    if mins < 60 then .minutes (npRound 0 mins) (npRound 1 seconds)
    else
      let (hours, mins) := divmod60 mins
      .hours (npRound 0 hours) (npRound 0 mins) (npRound 0 seconds)

end Lattpy
