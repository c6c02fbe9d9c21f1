import Verif.Model.VfsTime
import Verif.Spec.VfsTime
import Verif.Lemmas.VfsDiskRound
import Verif.Lemmas.VfsDiskInv

/-!
# Lemmas: dates
-/

namespace Verif.Vfs

open Verif.Spec

theorem isLeap_iff (y : Int) : isLeap y = true ↔ Leap y := by
  simp only [isLeap, Leap, Bool.and_eq_true, Bool.or_eq_true, beq_iff_eq, bne_iff_ne, ne_eq]
  omega

theorem yearStart_succ (y : Int) : yearStart (y + 1) = yearStart y + yearLen y := by
  unfold yearStart yearLen
  by_cases h : Leap y
  · rw [(isLeap_iff y).2 h]; simp only [if_true]; unfold Leap at h; omega
  · rw [show isLeap y = false from eq_false_of_ne_true (fun e => h ((isLeap_iff y).1 e))]
    simp only [Bool.false_eq_true, if_false]; unfold Leap at h; omega

theorem yearLen_ge (y : Int) : 365 ≤ yearLen y := by unfold yearLen; split <;> omega

theorem yearUp_spec (fuel : Nat) (y d : Int) (h0 : 0 ≤ d) (hf : d < 365 * (fuel : Int)) :
    0 ≤ (yearUp fuel y d).2 ∧ (yearUp fuel y d).2 < yearLen (yearUp fuel y d).1 ∧
      yearStart (yearUp fuel y d).1 + (yearUp fuel y d).2 = yearStart y + d ∧ y ≤ (yearUp fuel y d).1 := by
  induction fuel generalizing y d with
  | zero => omega
  | succ fuel ih =>
    unfold yearUp
    split
    · rename_i h; exact ⟨h0, h, rfl, Int.le_refl _⟩
    · rename_i h
      have := yearLen_ge y
      obtain ⟨h1, h2, h3, h4⟩ := ih (y + 1) (d - yearLen y) (by omega) (by push_cast at hf; omega)
      refine ⟨h1, h2, ?_, by omega⟩
      rw [h3, yearStart_succ]; omega

theorem yearDown_spec (fuel : Nat) (y d : Int) (h1 : d < yearLen y) (hf : 0 ≤ d + 365 * (fuel : Int)) :
    0 ≤ (yearDown fuel y d).2 ∧ (yearDown fuel y d).2 < yearLen (yearDown fuel y d).1 ∧
      yearStart (yearDown fuel y d).1 + (yearDown fuel y d).2 = yearStart y + d := by
  induction fuel generalizing y d with
  | zero => unfold yearDown; refine ⟨by omega, h1, rfl⟩
  | succ fuel ih =>
    unfold yearDown
    split
    · rename_i h; exact ⟨h, h1, rfl⟩
    · rename_i h
      have := yearLen_ge (y - 1)
      obtain ⟨a, b, c⟩ := ih (y - 1) (d + yearLen (y - 1)) (by omega) (by push_cast at hf; omega)
      refine ⟨a, b, ?_⟩
      have e := yearStart_succ (y - 1)
      rw [show y - 1 + 1 = y by omega] at e
      omega

theorem monthOf_spec (ls : List Int) (m d : Int) (h0 : 0 ≤ d) (hd : d < ls.sum) :
    ∃ i : Nat, ∃ h : i < ls.length, (monthOf ls m d).1 = m + i ∧ 0 ≤ (monthOf ls m d).2 ∧
      (monthOf ls m d).2 < ls[i] ∧ d = (ls.take i).sum + (monthOf ls m d).2 := by
  induction ls generalizing m d with
  | nil => simp at hd; omega
  | cons l ls ih =>
    unfold monthOf
    split
    · rename_i h
      exact ⟨0, by simp, by simp, h0, by simpa using h, by simp⟩
    · rename_i h
      rw [List.sum_cons] at hd
      obtain ⟨i, hi, h1, h2, h3, h4⟩ := ih (m + 1) (d - l) (by omega) (by omega)
      refine ⟨i + 1, by simpa using hi, by rw [h1]; push_cast; omega, h2, by simpa using h3, ?_⟩
      rw [List.take_succ_cons, List.sum_cons]
      omega

theorem monthLens_sum (y : Int) : (monthLens y).sum = yearLen y := by
  unfold monthLens yearLen
  cases isLeap y <;> rfl

/-- The days in front of a month, and the length of the month. -/
theorem monthDays_eq (y : Int) (m : Nat) (hm : m < 12) :
    monthDays y m = daysBeforeIn y (m + 1) ∧ ∀ h : m < (monthLens y).length,
      (monthLens y)[m] = daysBeforeIn y (m + 2) - daysBeforeIn y (m + 1) := by
  unfold monthDays monthLens daysBeforeIn
  by_cases hl : Leap y
  · rw [(isLeap_iff y).2 hl]
    simp only [hl, and_true]
    revert hm m
    decide
  · rw [show isLeap y = false from eq_false_of_ne_true (fun e => hl ((isLeap_iff y).1 e))]
    simp only [hl, and_false]
    revert hm m
    decide

theorem daysTo_eq (n : Nat) : daysTo n = yearStart (1970 + n) - yearStart 1970 := by
  induction n with
  | zero => simp [daysTo]
  | succ n ih =>
    unfold daysTo
    rw [ih]
    have := yearStart_succ (1970 + n)
    push_cast
    rw [← Int.add_assoc, this]
    omega

/-- `gmtime` gives the date of a time. -/
theorem gmtime_spec (t : Int) : ∃ d : Moment, d.Valid ∧ d.seconds = t ∧
    gmtime t = ⟨d.year - 1900, d.month - 1, d.day, d.hour, d.minute, d.second⟩ := by
  have hy : ∃ y k : Int, (if 0 ≤ t / 86400 then yearUp ((t / 86400).toNat / 365 + 1) 1970 (t / 86400)
      else yearDown ((-(t / 86400)).toNat / 365 + 1) 1970 (t / 86400)) = (y, k) ∧ 0 ≤ k ∧ k < yearLen y ∧
      yearStart y + k = yearStart 1970 + t / 86400 := by
    by_cases h : 0 ≤ t / 86400
    · rw [if_pos h]
      obtain ⟨a, b, c, -⟩ := yearUp_spec ((t / 86400).toNat / 365 + 1) 1970 (t / 86400) h (by omega)
      exact ⟨_, _, rfl, a, b, c⟩
    · rw [if_neg h]
      obtain ⟨a, b, c⟩ := yearDown_spec ((-(t / 86400)).toNat / 365 + 1) 1970 (t / 86400)
        (by have := yearLen_ge 1970; omega) (by omega)
      exact ⟨_, _, rfl, a, b, c⟩
  obtain ⟨y, k, e, k0, k1, hk⟩ := hy
  obtain ⟨i, hi, m1, m2, m3, m4⟩ := monthOf_spec (monthLens y) 0 k k0 (by rw [monthLens_sum]; exact k1)
  have hi12 : i < 12 := by simpa [monthLens] using hi
  obtain ⟨e1, e2⟩ := monthDays_eq y i hi12
  have e2 := e2 hi
  unfold monthDays at e1
  refine ⟨⟨y, i + 1, (monthOf (monthLens y) 0 k).2.toNat + 1, (t % 86400 / 3600).toNat, (t % 86400 % 3600 / 60).toNat,
    (t % 86400 % 60).toNat⟩, ⟨by simp, by simp; omega, by simp, ?_, ?_, ?_, ?_⟩, ?_, ?_⟩
  · simp only
    rw [show i + 1 + 1 = i + 2 from rfl, ← e2]; omega
  · simp only; omega
  · simp only; omega
  · simp only; omega
  · unfold Moment.seconds
    simp only
    rw [← e1]
    push_cast
    omega
  · unfold gmtime
    simp only [e]
    rw [m1]
    congr 1
    · push_cast; omega
    · push_cast; omega
    · omega
    · omega
    · omega

/-- `mktime` of a date. -/
theorem mktime_spec (off : Int) (d : Moment) (hm : 1 ≤ d.month) (hm' : d.month ≤ 12) (hy : 1970 ≤ d.year) :
    mktime off ⟨d.year - 1900, d.month - 1, d.day, d.hour, d.minute, d.second⟩ = d.seconds - off := by
  unfold mktime Moment.seconds
  simp only
  have e1 : ((d.month : Int) - 1) / 12 = 0 := by omega
  have e2 : (((d.month : Int) - 1) % 12).toNat = d.month - 1 := by omega
  have e3 : d.year - 1900 + 1900 + 0 = d.year := by omega
  rw [e1, e2, e3, daysTo_eq, (monthDays_eq d.year (d.month - 1) (by omega)).1, show d.month - 1 + 1 = d.month by omega,
    show 1970 + (((d.year - 1970).toNat : Nat) : Int) = d.year by omega]

/-! ## The bits of the DOS format -/

theorem or_add (i a b : Nat) (x : Nat) (hx : x = 2 ^ i * a) (hb : b < 2 ^ i) : x ||| b = x + b := by
  rw [hx, ← Nat.two_pow_add_eq_or_of_lt hb]

/-- The fields in one number. -/
def pack (y m d h mi s : Nat) : Nat := y * 33554432 + m * 2097152 + d * 65536 + h * 2048 + mi * 32 + s

theorem dos_toNat (y : Int) (m d h mi s : Nat) (hm : m < 16) (hd : d < 32) (hh : h < 32) (hmi : mi < 64) (hs : s < 32) :
    ((BitVec.ofInt 32 y <<< 25) ||| (BitVec.ofInt 32 m <<< 21) ||| (BitVec.ofInt 32 d <<< 16) |||
      (BitVec.ofInt 32 h <<< 11) ||| (BitVec.ofInt 32 mi <<< 5) ||| BitVec.ofInt 32 s).toNat =
      pack (y % 128).toNat m d h mi s := by
  have ey : (BitVec.ofInt 32 y <<< 25).toNat = (y % 128).toNat * 33554432 := by
    rw [BitVec.toNat_shiftLeft, BitVec.toNat_ofInt, Nat.shiftLeft_eq]
    omega
  have en : ∀ n k w : Nat, n < 2 ^ w → w + k ≤ 32 → (BitVec.ofInt 32 (n : Int) <<< k).toNat = n * 2 ^ k := by
    intro n k w hn hw
    rw [BitVec.ofInt_natCast, BitVec.toNat_shiftLeft, BitVec.toNat_ofNat, Nat.shiftLeft_eq]
    have h1 : 2 ^ (w + k) ≤ 2 ^ 32 := Nat.pow_le_pow_right (by decide) hw
    have h2 : 2 ^ w ≤ 2 ^ 32 := Nat.pow_le_pow_right (by decide) (by omega)
    have h3 : n * 2 ^ k < 2 ^ (w + k) := by
      rw [Nat.pow_add]; exact Nat.mul_lt_mul_of_pos_right hn (Nat.two_pow_pos k)
    rw [Nat.mod_eq_of_lt (a := n) (by omega), Nat.mod_eq_of_lt (by omega)]
  have e1 := en m 21 4 hm (by omega)
  have e2 := en d 16 5 hd (by omega)
  have e3 := en h 11 5 hh (by omega)
  have e4 := en mi 5 6 hmi (by omega)
  have e5 := en s 0 5 hs (by omega)
  simp only [BitVec.shiftLeft_zero] at e5
  rw [BitVec.toNat_or, BitVec.toNat_or, BitVec.toNat_or, BitVec.toNat_or, BitVec.toNat_or, ey, e1, e2, e3, e4, e5]
  unfold pack
  have hy : (y % 128).toNat < 128 := by omega
  rw [or_add 25 (y % 128).toNat (m * 2 ^ 21) ((y % 128).toNat * 33554432) (by omega) (by omega),
    or_add 21 ((y % 128).toNat * 16 + m) (d * 2 ^ 16) ((y % 128).toNat * 33554432 + m * 2 ^ 21) (by omega) (by omega),
    or_add 16 (((y % 128).toNat * 16 + m) * 32 + d) (h * 2 ^ 11) ((y % 128).toNat * 33554432 + m * 2 ^ 21 + d * 2 ^ 16)
      (by omega) (by omega),
    or_add 11 ((((y % 128).toNat * 16 + m) * 32 + d) * 32 + h) (mi * 2 ^ 5)
      ((y % 128).toNat * 33554432 + m * 2 ^ 21 + d * 2 ^ 16 + h * 2 ^ 11) (by omega) (by omega),
    or_add 5 (((((y % 128).toNat * 16 + m) * 32 + d) * 32 + h) * 64 + mi) (s * 2 ^ 0)
      ((y % 128).toNat * 33554432 + m * 2 ^ 21 + d * 2 ^ 16 + h * 2 ^ 11 + mi * 2 ^ 5) (by omega) (by omega)]
  omega

theorem field (x : BitVec 32) (k w : Nat) (mask : BitVec 32) (hmask : mask.toNat = 2 ^ w - 1) :
    ((x >>> k) &&& mask).toNat = x.toNat / 2 ^ k % 2 ^ w := by
  rw [BitVec.toNat_and, BitVec.toNat_ushiftRight, hmask, Nat.and_two_pow_sub_one_eq_mod, Nat.shiftRight_eq_div_pow]

theorem dos_fields (off : Int) (x : BitVec 32) (y m d h mi s : Nat) (hx : x.toNat = pack y m d h mi s)
    (hy : y < 128) (hm : m < 16) (hd : d < 32) (hh : h < 32) (hmi : mi < 64) (hs : s < 32) :
    dosToUnix off x = mktime off ⟨y + 80, m - 1, d, h, mi, s * 2⟩ := by
  unfold dosToUnix
  rw [field x 25 7 _ (by decide), field x 21 4 _ (by decide), field x 16 5 _ (by decide), field x 11 5 _ (by decide),
    field x 5 6 _ (by decide)]
  have h0 := field x 0 5 0x1F (by decide)
  simp only [BitVec.ushiftRight_zero] at h0
  rw [h0, hx]
  unfold pack
  congr 1
  simp only [Tm.mk.injEq]
  refine ⟨?_, ?_, ?_, ?_, ?_, ?_⟩ <;> omega

/-- The day of a date is at most 31. -/
theorem day_le {d : Moment} (h : d.Valid) : d.day ≤ 31 := by
  obtain ⟨h1, h2, h3, h4, -⟩ := h
  have : ∀ m : Nat, m < 12 → daysBeforeIn d.year (m + 2) - daysBeforeIn d.year (m + 1) ≤ 31 := by
    unfold daysBeforeIn
    by_cases hl : Leap d.year
    · simp only [hl, and_true]; decide
    · simp only [hl, and_false]; decide
  have := this (d.month - 1) (by omega)
  rw [show d.month - 1 + 2 = d.month + 1 by omega, show d.month - 1 + 1 = d.month by omega] at this
  omega

/-- What comes back for a date: the year modulo 128, the second rounded down to an even number. -/
theorem dos_date (off t : Int) (d : Moment) (h : d.Valid)
    (hg : gmtime t = ⟨d.year - 1900, d.month - 1, d.day, d.hour, d.minute, d.second⟩) :
    dosToUnix off (unixToDos t) =
      Moment.seconds ⟨(d.year - 1980) % 128 + 1980, d.month, d.day, d.hour, d.minute, d.second / 2 * 2⟩ - off := by
  have hd := day_le h
  obtain ⟨h1, h2, h3, h4, h5, h6, h7⟩ := h
  have hn := dos_toNat (d.year - 1980) d.month d.day d.hour d.minute (d.second / 2) (by omega) (by omega) (by omega)
    (by omega) (by omega)
  have hu : unixToDos t = (BitVec.ofInt 32 (d.year - 1980) <<< 25) ||| (BitVec.ofInt 32 (d.month : Int) <<< 21) |||
      (BitVec.ofInt 32 (d.day : Int) <<< 16) ||| (BitVec.ofInt 32 (d.hour : Int) <<< 11) |||
      (BitVec.ofInt 32 (d.minute : Int) <<< 5) ||| BitVec.ofInt 32 ((d.second / 2 : Nat) : Int) := by
    unfold unixToDos
    simp only [hg]
    rw [show d.year - 1900 - 80 = d.year - 1980 by omega, show (d.month : Int) - 1 + 1 = d.month by omega,
      show (d.second : Int) / 2 = ((d.second / 2 : Nat) : Int) by omega]
  rw [hu, dos_fields off _ _ _ _ _ _ _ hn (by omega) (by omega) (by omega) (by omega) (by omega) (by omega)]
  have := mktime_spec off ⟨(d.year - 1980) % 128 + 1980, d.month, d.day, d.hour, d.minute, d.second / 2 * 2⟩ h1 h2
    (by simp only; omega)
  rw [← this]
  congr 1
  simp only [Tm.mk.injEq]
  refine ⟨?_, trivial, trivial, trivial, trivial, ?_⟩ <;> omega

/-- A date lies in its year. -/
theorem in_year {d : Moment} (h : d.Valid) :
    (yearStart d.year - yearStart 1970) * 86400 ≤ d.seconds ∧
      d.seconds < (yearStart (d.year + 1) - yearStart 1970) * 86400 := by
  obtain ⟨h1, h2, h3, h4, h5, h6, h7⟩ := h
  have key : ∀ m : Nat, m < 12 → 0 ≤ daysBeforeIn d.year (m + 1) ∧ daysBeforeIn d.year (m + 2) ≤ yearLen d.year := by
    unfold daysBeforeIn yearLen
    by_cases hl : Leap d.year
    · rw [(isLeap_iff _).2 hl]; simp only [hl, and_true]; decide
    · rw [show isLeap d.year = false from eq_false_of_ne_true (fun e => hl ((isLeap_iff _).1 e))]
      simp only [hl, and_false]; decide
  have := key (d.month - 1) (by omega)
  rw [show d.month - 1 + 2 = d.month + 1 by omega, show d.month - 1 + 1 = d.month by omega] at this
  rw [yearStart_succ]
  unfold Moment.seconds
  generalize yearStart d.year = a at *
  generalize yearStart 1970 = b at *
  generalize daysBeforeIn d.year d.month = c at *
  generalize daysBeforeIn d.year (d.month + 1) = e at *
  generalize yearLen d.year = f at *
  omega

theorem dosFirst_eq : dosFirst = 315532800 := by decide
theorem dosLast_eq : dosLast = 4354819199 := by decide

theorem year_range {d : Moment} (h : d.Valid) : (dosFirst ≤ d.seconds ∧ d.seconds ≤ dosLast) ↔ (1980 ≤ d.year ∧ d.year ≤ 2107) := by
  obtain ⟨h1, h2⟩ := in_year h
  rw [dosFirst_eq, dosLast_eq]
  unfold yearStart at h1 h2
  omega

/-! ## The times of mounted nodes -/

/-- All nodes of a list of trees have the time. -/
def Timed (T : Int) (cs : List Node) : Prop := ∀ c ∈ cs, ∀ x, Inside c x → x.time = T

theorem Timed.create {T : Int} {cs : List Node} (h : Timed T cs) {n : Node} (hn : ∀ x, Inside n x → x.time = T) :
    Timed T (createIn n cs).1 := fun c hc => (mem_create hc).elim (fun e => e ▸ hn) (h c)

theorem Timed.remove {T : Int} {cs : List Node} (h : Timed T cs) (name : Bytes) : Timed T (removeIn name cs).1 :=
  fun c hc => h c (mem_remove hc)

theorem Timed.replace {T : Int} {cs : List Node} (h : Timed T cs) {n : Node} (hn : ∀ x, Inside n x → x.time = T) :
    Timed T (setReplace n cs) := fun c hc => (mem_replace hc).elim (fun e => e ▸ hn) (h c)

theorem timed_dir {T : Int} {n : Bytes} {cs : List Node} (h : Timed T cs) : ∀ x, Inside (.dir n T cs) x → x.time = T := by
  intro x hx
  cases hx with
  | self => rfl
  | kid hc hi => exact h _ hc _ hi

theorem timed_file {T : Int} {n : Bytes} {d : Desc} : ∀ x, Inside (.file n T d) x → x.time = T := by
  intro x hx; cases hx; rfl

theorem timed_createIn {T : Int} {cs : List Node} (ho : Ordered cs) (h : Timed T cs) {n : Node}
    (hn : ∀ x, Inside n x → x.time = T) : ∀ x, Inside (createIn n cs).2 x → x.time = T := by
  rcases create_snd_mem (n := n) ho with e | e
  · rw [e]; exact hn
  · exact h _ e

theorem childIn_timed {T : Int} {cs : List Node} (ho : Ordered cs) (h : Timed T cs) {name : Bytes} {ex : Node}
    (hc : childIn name cs = some ex) : ∀ x, Inside ex x → x.time = T := h _ (childIn_mem ho hc)

theorem enterDir_timed {k : Disk} {name : Bytes} {cs : List Node} (ho : Ordered cs) (h : Timed k.time cs) :
    Timed k.time (enterDir k name cs).1 ∧ ∀ x, (enterDir k name cs).2 = some x → ∀ y, Inside x y → y.time = k.time := by
  have hnew : ∀ x, Inside (.dir name k.time []) x → x.time = k.time := timed_dir (fun _ hc => by cases hc)
  unfold enterDir
  cases hc : childIn name cs with
  | none =>
    refine ⟨h.create hnew, ?_⟩
    intro x hx
    simp only [Option.some.injEq] at hx
    subst hx
    exact timed_createIn ho h hnew
  | some ex =>
    dsimp only
    split
    · split
      · refine ⟨(h.remove name).create hnew, ?_⟩
        intro x hx
        simp only [Option.some.injEq] at hx
        subst hx
        exact timed_createIn (ordered_remove ho) (h.remove name) hnew
      · exact ⟨h, fun x hx => by cases hx⟩
    · refine ⟨h, ?_⟩
      intro x hx
      simp only [Option.some.injEq] at hx
      subst hx
      exact childIn_timed ho h hc

theorem enterFile_timed {k : Disk} {e : Entry} {cs : List Node} (h : Timed k.time cs) : Timed k.time (enterFile k e cs) := by
  have hnew : ∀ x, Inside (fileNode k e) x → x.time = k.time := timed_file
  unfold enterFile
  split
  · exact h
  · split
    · exact h.create hnew
    · split
      · exact (h.remove _).create hnew
      · exact h

theorem load_timed {k : Disk} (fuel : Nat) :
    (∀ cs s, Good (fun _ => True) cs → Timed k.time cs → Timed k.time (loadEntry k fuel cs s).1) ∧
    (∀ cs s, Good (fun _ => True) cs → Timed k.time cs → Timed k.time (loadLoop k fuel cs s).1) := by
  induction fuel with
  | zero => exact ⟨fun cs s _ h => by simpa [loadEntry] using h, fun cs s _ h => by simpa [loadLoop] using h⟩
  | succ fuel ih =>
    constructor
    · intro cs s hg h
      unfold loadEntry
      cases readEntry s with
      | error e => exact h
      | ok r =>
        obtain ⟨e, s⟩ := r
        dsimp only
        split
        · have hd := enterDir_timed (k := k) (name := e.name) hg.ordered h
          have hgd := enterDir_good (k := k) (name := e.name) hg
          cases hen : enterDir k e.name cs with
          | mk cs1 o =>
            rw [hen] at hd hgd
            cases o with
            | none => exact hd.1
            | some x =>
              cases x with
              | file n t d => exact hd.1
              | dir n t kids =>
                dsimp only
                obtain ⟨hw, hf⟩ := hgd.2 _ rfl
                have ht := hd.2 _ rfl
                split
                · exact hd.1
                · have hk := ih.2 kids (by assumption) (Good.of hw hf) (fun c hc y hy => ht y (.kid hc hy))
                  generalize hl : loadLoop k fuel kids _ = res at hk ⊢
                  obtain ⟨kids', r⟩ := res
                  have he : t = k.time := ht _ (.self _)
                  have := hd.1.replace (n := .dir n t kids') (by rw [he]; exact timed_dir hk)
                  cases r with
                  | error x => exact this
                  | ok s' =>
                    dsimp only
                    split <;> exact this
        · exact enterFile_timed h
    · intro cs s hg h
      unfold loadLoop
      have := ih.1 cs s hg h
      have hg' := (load_good (Q := fun _ => True) (k := k) (fun _ _ => trivial) fuel).1 cs s hg
      generalize hl : loadEntry k fuel cs s = res at this hg'
      obtain ⟨cs', r⟩ := res
      cases r with
      | error e => exact this
      | ok q =>
        obtain ⟨b, s'⟩ := q
        cases b
        · exact ih.2 cs' s' hg' this
        · exact this

theorem mountDisk_timed (unixTime : BitVec 32 → Int) (fuel : Nat) (buf : Bytes) (o : Overwrite) {catalog dos zipped s}
    (hh : readDiskHeader ⟨buf, 0⟩ = .ok ((catalog, dos, zipped), s)) {cs r}
    (hm : mountDisk unixTime fuel buf o empty = (.dir b!"/" (-1) cs, r)) : Timed (unixTime dos) cs := by
  unfold mountDisk empty at hm
  rw [hh] at hm
  dsimp only at hm
  cases hs : Rd.seek (catalog.toNat : Nat) .beg s with
  | error e =>
    rw [hs] at hm
    simp only [Prod.mk.injEq, Node.dir.injEq, true_and] at hm
    rw [← hm.1]; intro c hc; cases hc
  | ok q =>
    obtain ⟨u, s'⟩ := q
    rw [hs] at hm
    simp only [Prod.mk.injEq, Node.dir.injEq, true_and] at hm
    rw [← hm.1]
    exact (load_timed (k := ⟨buf, catalog, unixTime dos, zipped, o⟩) fuel).2 [] s' Good.nil (fun c hc => by cases hc)

theorem save_header (st : Stored) (unz : Zip.Unz) (zip : Bytes → Bytes) (compressed g1 : Bool) (dos : BitVec 32)
    (P : Bytes → Bytes → Prop) (hst : Stores st zip compressed P) (root : Node) (n : Bytes) (ts : List FTree)
    (hv : view unz root = some (.dir n ts)) (hfit : FTree.FitsAll P ts) (hsize : 296 + FTree.bytesAll st ts < 2 ^ 32)
    {image : Bytes} (hs : save unz zip compressed g1 dos root = .ok image) :
    ∃ s, readDiskHeader ⟨image, 0⟩ = .ok ((296, dos, compressed), s) := by
  have hb := bytesAll_eq st ts
  obtain ⟨index, files, size, hs'⟩ := save_eq st unz zip compressed g1 dos P hst root n ts hv hfit
    (by simp only [below_]; omega)
  rw [hs] at hs'
  injection hs' with hs'
  rw [hs', List.append_assoc]
  exact ⟨_, readHeader_eq compressed g1 index files dos size _⟩

end Verif.Vfs
