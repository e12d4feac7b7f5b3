import Verif.Model.Event

/-!
# Timestamp arithmetic and conversions

Models `Timestamp.add` (`common/common.py:45-50`) and the float and datetime
conversions of `common/encoder.py:45-115`.

A float is the rational it denotes (NaN and infinities are not modelled).  The
rounding of a float operation is the parameter `fl`: the operation's exact
result goes in, the float comes out.  Subtracting the integer part of a float
and comparing are exact and need no rounding.
-/

namespace HatEvent

/-- Python `int(x)` of a float: truncation towards zero. -/
def pyInt (q : Rat) : Int := if q < 0 then -(-q).floor else q.floor

/-- Python `round(x)` of a float: nearest integer, ties to even. -/
def pyRound (q : Rat) : Int :=
  let f := q.floor
  if q - f < 1 / 2 then f
  else if 1 / 2 < q - f then f + 1
  else if f % 2 = 0 then f
  else f + 1

/-- `Timestamp.add`, `common/common.py:45-50`. -/
def Timestamp.add (fl : Rat → Rat) (self : Timestamp) (s : Rat) : Timestamp :=
  let us := self.us + pyRound (fl ((s - pyInt s) * 1000000))
  let s := self.s + pyInt s
  -- `//` and `%` with a positive divisor
  ⟨s + us / 1000000, us % 1000000⟩

/-- `timestamp_to_float`, `common/encoder.py:45-51`; `1E-6` is itself a rounded
constant. -/
def timestampToFloat (fl : Rat → Rat) (t : Timestamp) : Rat :=
  fl (t.s + fl (t.us * fl (1 / 1000000)))

/-- `timestamp_from_float`, `common/encoder.py:54-70`. -/
def timestampFromFloat (fl : Rat → Rat) (ts : Rat) : Timestamp :=
  let s := pyInt ts
  let s := if ts < 0 then s - 1 else s
  let us := pyRound (fl (fl (ts - s) * 1000000))
  if us = 1000000 then ⟨s + 1, 0⟩ else ⟨s, us⟩

/-- `datetime.datetime` in UTC, or without time zone.  The calendar fields are
represented by the whole seconds since 1970-01-01 they denote. -/
structure DateTime where
  seconds : Int
  microsecond : Int
  utc : Bool
  deriving DecidableEq, Repr

/-- `timestamp_to_datetime`, `common/encoder.py:73-95`; `datetime` covers the
years 1 to 9999. -/
def timestampToDatetime (t : Timestamp) : Except PyErr DateTime :=
  if t.s < -62135596800 ∨ 253402300799 < t.s then .error (.valueError "year is out of range")
  else if t.us < 0 ∨ 999999 < t.us then .error (.valueError "microsecond must be in 0..999999")
  else .ok ⟨t.s, t.us, true⟩

/-- `datetime.timestamp()` of the standard library: exact number of
microseconds, divided with one rounding. -/
def DateTime.timestamp (fl : Rat → Rat) (dt : DateTime) : Rat :=
  fl (dt.seconds + dt.microsecond / 1000000)

/-- `timestamp_from_datetime`, `common/encoder.py:98-115`. -/
def timestampFromDatetime (fl : Rat → Rat) (dt : DateTime) : Timestamp :=
  let dt := if dt.utc then dt else { dt with utc := true }
  let s := pyInt (dt.timestamp fl)
  let s := if dt.timestamp fl < 0 then s - 1 else s
  ⟨s, dt.microsecond⟩

end HatEvent
