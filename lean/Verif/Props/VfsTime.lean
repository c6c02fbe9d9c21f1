import Verif.Lemmas.VfsTime
import Verif.Props.VfsDisk

/-!
# C96: the time of a disk
-/

namespace Verif.Props

open Verif.Vfs Verif.Spec
open Zip (Unz)

/-- The calendar of the model is the Gregorian one: every time has exactly the date `gmtime` gives, and `mktime` is its
inverse in UTC. -/
theorem c96_calendar (t : Int) : ∃ d : Moment, d.Valid ∧ d.seconds = t ∧
    gmtime t = ⟨d.year - 1900, d.month - 1, d.day, d.hour, d.minute, d.second⟩ ∧
    (1970 ≤ d.year → mktime 0 (gmtime t) = t) := by
  obtain ⟨d, h1, h2, h3⟩ := gmtime_spec t
  refine ⟨d, h1, h2, h3, ?_⟩
  intro hy
  rw [h3, mktime_spec 0 d h1.1 h1.2.1 hy, h2]
  omega

/-- C96, as far as it goes: in UTC the time of a disk, from 1980 to 2107, comes back rounded down to an even second. -/
theorem c96_utc_partial (t : Int) (h0 : dosFirst ≤ t) (h1 : t ≤ dosLast) : dosToUnix 0 (unixToDos t) = t - t % 2 := by
  obtain ⟨d, hv, hs, hg⟩ := gmtime_spec t
  obtain ⟨ha, hb⟩ := (year_range hv).1 ⟨by omega, by omega⟩
  rw [dos_date 0 t d hv hg, show (d.year - 1980) % 128 + 1980 = d.year by omega, ← hs]
  unfold Moment.seconds
  simp only
  push_cast
  omega

example : dosFirst ≤ 1700000001 ∧ (1700000001 : Int) ≤ dosLast ∧ dosToUnix 0 (unixToDos 1700000001) = 1700000000 := by decide +kernel

/-- C96, violated: a computer whose clock is `off` seconds ahead of UTC reads the time of a disk wrong by `off`. -/
theorem c96_zone_violation (off t : Int) (h0 : dosFirst ≤ t) (h1 : t ≤ dosLast) :
    dosToUnix off (unixToDos t) = t - t % 2 - off := by
  have h := c96_utc_partial t h0 h1
  have e : ∀ x, dosToUnix off x = dosToUnix 0 x - off := by
    intro x; unfold dosToUnix mktime; simp only; omega
  rw [e, h]

/-- Two disks are still in the right order when they were saved at least two seconds apart. -/
theorem c96_order_partial (off t u : Int) (h0 : dosFirst ≤ t) (htu : t + 2 ≤ u) (h1 : u ≤ dosLast) :
    dosToUnix off (unixToDos t) < dosToUnix off (unixToDos u) := by
  rw [c96_zone_violation off t h0 (by omega), c96_zone_violation off u (by omega) h1]
  omega

/-- C96, violated: two disks that were saved one second apart can not be told apart. -/
theorem c96_second_violation (off t : Int) (h0 : dosFirst ≤ t) (h1 : t + 1 ≤ dosLast) (he : t % 2 = 0) :
    dosToUnix off (unixToDos t) = dosToUnix off (unixToDos (t + 1)) := by
  rw [c96_zone_violation off t h0 (by omega), c96_zone_violation off (t + 1) (by omega) h1]
  omega

/-- C96, violated: no other time ever comes back; what comes back lies between 1980 and 2107. -/
theorem c96_outside_violation (t : Int) (h : t < dosFirst ∨ dosLast < t) :
    dosToUnix 0 (unixToDos t) ≠ t ∧ dosFirst ≤ dosToUnix 0 (unixToDos t) := by
  obtain ⟨d, hv, hs, hg⟩ := gmtime_spec t
  have hd := day_le hv
  have hno : ¬ (1980 ≤ d.year ∧ d.year ≤ 2107) := by
    rw [← year_range hv, hs]; omega
  have key : dosFirst ≤ Moment.seconds ⟨(d.year - 1980) % 128 + 1980, d.month, d.day, d.hour, d.minute, d.second / 2 * 2⟩ ∧
      (dosLast < t → Moment.seconds ⟨(d.year - 1980) % 128 + 1980, d.month, d.day, d.hour, d.minute, d.second / 2 * 2⟩ < t) := by
    have hb : ∀ y : Int, 0 ≤ daysBeforeIn y d.month ∧ daysBeforeIn y d.month ≤ 335 := by
      intro y
      have : ∀ m : Nat, m < 12 → 0 ≤ daysBeforeIn y (m + 1) ∧ daysBeforeIn y (m + 1) ≤ 335 := by
        unfold daysBeforeIn
        by_cases hl : Leap y
        · simp only [hl, and_true]; decide
        · simp only [hl, and_false]; decide
      have := this (d.month - 1) (by have := hv.2.1; have := hv.1; omega)
      rwa [show d.month - 1 + 1 = d.month by have := hv.1; omega] at this
    obtain ⟨v1, v2, v3, v4, v5, v6, v7⟩ := hv
    have b1 := hb ((d.year - 1980) % 128 + 1980)
    have b2 := hb d.year
    rw [← hs, dosFirst_eq, dosLast_eq]
    unfold Moment.seconds
    simp only
    generalize daysBeforeIn ((d.year - 1980) % 128 + 1980) d.month = a at *
    generalize daysBeforeIn d.year d.month = b at *
    unfold yearStart
    push_cast
    constructor
    · omega
    · intro hl
      omega
  rw [dos_date 0 t d hv hg]
  refine ⟨?_, by omega⟩
  rcases h with h | h
  · omega
  · have := key.2 h; omega

/-- C96, violated: the time of a new Vfs, one second in front of 1970, comes back as the last day of 2097. -/
theorem c96_default_violation : dosToUnix 0 (unixToDos (-1)) = Moment.seconds ⟨2097, 12, 31, 23, 59, 58⟩ := by decide +kernel

/-- The time zero stands for the current time. -/
theorem c96_zero (now : Int) : saveTime now 0 = unixToDos now ∧ ∀ t, t ≠ 0 → saveTime now t = unixToDos t :=
  ⟨rfl, fun t h => by unfold saveTime; rw [if_neg (by simpa using h)]⟩

/-- C96, with the archive: a tree saved with the time `t` and mounted again on a computer that is `off` seconds ahead of
UTC has that time, rounded and shifted, in all its nodes. -/
theorem c96_disk (unz : Unz) (zip : Bytes → Bytes) (g1 : Bool) (off now t : Int) (o : Overwrite) (root : Node) (n : Bytes)
    (ts : List FTree) (hw : Wf root) (hv : view unz root = some (.dir n ts)) (hne : ts ≠ [])
    (hfit : FTree.FitsAll (fun _ _ => True) ts) (hsize : 296 + FTree.bytesAll storedPlain ts < 2 ^ 32)
    (h0 : dosFirst ≤ t) (h1 : t ≤ dosLast) :
    ∃ image f0 cs, save unz zip false g1 (saveTime now t) root = .ok image ∧ viewAll unz cs = some ts ∧ ∀ fuel, fuel ≥ f0 →
      mountDisk (dosToUnix off) fuel image o empty = (.dir b!"/" (-1) cs, .ok ()) ∧
      ∀ c ∈ cs, ∀ x, Inside c x → x.time = t - t % 2 - off := by
  have ht : saveTime now t = unixToDos t := (c96_zero now).2 t (by rw [dosFirst_eq] at h0; omega)
  rw [ht]
  obtain ⟨image, f0, cs, hs, -, hv', hm⟩ :=
    c26_disk_roundtrip unz zip g1 (unixToDos t) (dosToUnix off) o root n ts hw hv hne hfit hsize
  refine ⟨image, f0, cs, hs, hv', ?_⟩
  intro fuel hf
  refine ⟨hm fuel hf, ?_⟩
  obtain ⟨s, hh⟩ := save_header storedPlain unz zip false g1 (unixToDos t) _ (stores_plain zip _) root n ts hv hfit hsize hs
  have := mountDisk_timed (dosToUnix off) fuel image o hh (hm fuel hf)
  rw [c96_zone_violation off t h0 h1] at this
  exact this

end Verif.Props
