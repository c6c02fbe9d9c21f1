import Verif.Model.VfsDisk

/-!
# Times of disks

`src/Vfs.cc` stores the time of a disk in the format of MS-DOS, in one 32-bit number. `gmtime` and `mktime` of the C
library are modelled for the proleptic Gregorian calendar. Simplifications: a time zone is a fixed number of seconds
`off` that local time is ahead of UTC, there is no daylight saving time, there are no leap seconds, and years are not
limited to the range of `int`.
-/

namespace Verif.Vfs

/-- `std::tm` as far as the code uses it: `year` counts from 1900, `mon` from 0, `mday` from 1. -/
structure Tm where
  year : Int
  mon : Int
  mday : Int
  hour : Int
  min : Int
  sec : Int
  deriving DecidableEq, Repr

/-- Is the year (counted from the birth of Christ) a leap year? -/
def isLeap (y : Int) : Bool := y % 4 == 0 && (y % 100 != 0 || y % 400 == 0)

/-- The days of a year. -/
def yearLen (y : Int) : Int := if isLeap y then 366 else 365

/-- The lengths of the months of a year. -/
def monthLens (y : Int) : List Int :=
  [31, if isLeap y then 29 else 28, 31, 30, 31, 30, 31, 31, 30, 31, 30, 31]

/-- The year of a day, and the day in that year, counting forward from the start of the year `y`. -/
def yearUp : Nat → Int → Int → Int × Int
  | 0, y, d => (y, d)
  | fuel + 1, y, d => if d < yearLen y then (y, d) else yearUp fuel (y + 1) (d - yearLen y)

/-- The year of a day, and the day in that year, counting backward from the start of the year `y`. -/
def yearDown : Nat → Int → Int → Int × Int
  | 0, y, d => (y, d)
  | fuel + 1, y, d => if 0 ≤ d then (y, d) else yearDown fuel (y - 1) (d + yearLen (y - 1))

/-- The month of a day of a year (counted from `m`), and the day in that month (counted from 0). -/
def monthOf : List Int → Int → Int → Int × Int
  | [], m, d => (m, d)
  | l :: ls, m, d => if d < l then (m, d) else monthOf ls (m + 1) (d - l)

/-- `gmtime`, called in `src/Vfs.cc:240`. -/
def gmtime (t : Int) : Tm :=
  let days := t / 86400
  let secs := t % 86400
  let (y, d) := if 0 ≤ days then yearUp (days.toNat / 365 + 1) 1970 days
    else yearDown ((-days).toNat / 365 + 1) 1970 days
  let (m, d) := monthOf (monthLens y) 0 d
  ⟨y - 1900, m, d + 1, secs / 3600, secs % 3600 / 60, secs % 60⟩

/-- The days of the years from 1970 up to, and without, the year `1970 + n`. -/
def daysTo : Nat → Int
  | 0 => 0
  | n + 1 => daysTo n + yearLen (1970 + n)

/-- The days of the first months of a year. -/
def monthDays (y : Int) (m : Nat) : Int := ((monthLens y).take m).sum

/-- `mktime`, called in `src/Vfs.cc:431`, where local time is `off` seconds ahead of UTC. Fields outside their range
are carried over. Simplification: the year is not before 1970, which holds for all times the code passes. -/
def mktime (off : Int) (t : Tm) : Int :=
  let y := t.year + 1900 + t.mon / 12
  let days := daysTo (y - 1970).toNat + monthDays y (t.mon % 12).toNat + (t.mday - 1)
  days * 86400 + t.hour * 3600 + t.min * 60 + t.sec - off

/-- `vfs_unix_to_dos_time` (`src/Vfs.cc:237-249`). Negative fields are shifted as C++20 defines it, and converted to 32
bits without a sign. -/
def unixToDos (t : Int) : BitVec 32 :=
  let tm := gmtime t
  (BitVec.ofInt 32 (tm.year - 80) <<< 25) ||| (BitVec.ofInt 32 (tm.mon + 1) <<< 21) ||| (BitVec.ofInt 32 tm.mday <<< 16) |||
    (BitVec.ofInt 32 tm.hour <<< 11) ||| (BitVec.ofInt 32 tm.min <<< 5) ||| BitVec.ofInt 32 (tm.sec / 2)

/-- `vfs_dos_to_unix_time` (`src/Vfs.cc:421-432`). -/
def dosToUnix (off : Int) (dos : BitVec 32) : Int :=
  mktime off
    { year := ((dos >>> 25) &&& 0x7F).toNat + 80
      mon := ((dos >>> 21) &&& 0xF).toNat - 1
      mday := ((dos >>> 16) &&& 0x1F).toNat
      hour := ((dos >>> 11) &&& 0x1F).toNat
      min := ((dos >>> 5) &&& 0x3F).toNat
      sec := (dos &&& 0x1F).toNat * 2 }

/-- The time `Vfs::save_internal` stores (`src/Vfs.cc:394`): zero stands for the time of the clock. -/
def saveTime (now t : Int) : BitVec 32 := if t == 0 then unixToDos now else unixToDos t

end Verif.Vfs
