/-!
# Bytes, byte-string literals and little-endian coding

Files read and written by ZenKit are little endian (`memcpy` of the in-memory
representation on the supported targets, `src/Stream.cc:17-27`).
-/

namespace Verif

/-- One byte of a stream (`std::byte`, `char`, `uint8_t`). -/
abbrev Byte := UInt8

/-- A byte string: file contents as well as `std::string` values (which carry no encoding). -/
abbrev Bytes := List Byte

open Lean in
/-- `b!"abc"` is the list of the UTF-8 bytes of the literal. -/
syntax:max "b!" noWs str : term

open Lean in
macro_rules
  | `(b!$s:str) => do
    let bs := s.getString.toUTF8.toList
    let elems ← bs.mapM fun b => do
      let n := Syntax.mkNumLit (toString b.toNat)
      `(($n : UInt8))
    let arr : TSyntaxArray `term := elems.toArray.map (fun t => ⟨t.raw⟩)
    `(([$arr,*] : List UInt8))

/-- The `k` low bytes of `v`, least significant first. -/
def leBytes : Nat → Nat → Bytes
  | 0, _ => []
  | k + 1, v => UInt8.ofNat (v % 256) :: leBytes k (v / 256)

/-- The number denoted by a little-endian byte string. -/
def leNat : Bytes → Nat
  | [] => 0
  | b :: bs => b.toNat + 256 * leNat bs

@[simp] theorem leBytes_length (k v : Nat) : (leBytes k v).length = k := by
  induction k generalizing v with
  | zero => rfl
  | succ k ih => simp [leBytes, ih]

theorem leNat_leBytes (k v : Nat) : leNat (leBytes k v) = v % 256 ^ k := by
  induction k generalizing v with
  | zero => simp [leBytes, leNat, Nat.mod_one]
  | succ k ih =>
    simp only [leBytes, leNat, ih]
    rw [UInt8.toNat_ofNat']
    have h : 256 ^ (k + 1) = 256 * 256 ^ k := by rw [Nat.pow_succ, Nat.mul_comm]
    rw [h, Nat.mod_mul]
    simp

theorem leNat_lt (bs : Bytes) : leNat bs < 256 ^ bs.length := by
  induction bs with
  | nil => simp [leNat]
  | cons b bs ih =>
    simp only [leNat, List.length_cons, Nat.pow_succ]
    have := b.toNat_lt
    omega

theorem leBytes_leNat (bs : Bytes) : leBytes bs.length (leNat bs) = bs := by
  induction bs with
  | nil => rfl
  | cons b bs ih =>
    have hb := b.toNat_lt
    have h1 : (b.toNat + 256 * leNat bs) % 256 = b.toNat := by omega
    have h2 : (b.toNat + 256 * leNat bs) / 256 = leNat bs := by omega
    simp [leNat, leBytes, h1, h2, ih]

/-- Appending zero bytes does not change the denoted number. -/
theorem leNat_append_zeros (bs : Bytes) (n : Nat) :
    leNat (bs ++ List.replicate n 0) = leNat bs := by
  induction bs with
  | nil =>
    induction n with
    | zero => rfl
    | succ n ih => simp only [List.nil_append] at ih; simp [List.replicate_succ, leNat, ih]
  | cons b bs ih => simp [leNat, ih]

/-- Encoding of a machine word of `k` bytes. -/
def encW {w : Nat} (k : Nat) (v : BitVec w) : Bytes := leBytes k v.toNat

/-- Decoding of a machine word. -/
def decW (w : Nat) (bs : Bytes) : BitVec w := BitVec.ofNat w (leNat bs)

@[simp] theorem encW_length {w : Nat} (k : Nat) (v : BitVec w) : (encW k v).length = k := by
  simp [encW]

theorem decW_encW {w : Nat} (k : Nat) (hk : w = 8 * k) (v : BitVec w) :
    decW w (encW k v) = v := by
  subst hk
  apply BitVec.eq_of_toNat_eq
  have h : 256 ^ k = 2 ^ (8 * k) := by
    rw [Nat.pow_mul]
  simp only [decW, encW, leNat_leBytes, BitVec.toNat_ofNat]
  rw [h, Nat.mod_mod, Nat.mod_eq_of_lt v.isLt]

theorem encW_decW {w : Nat} (k : Nat) (hk : w = 8 * k) (bs : Bytes) (hb : bs.length = k) :
    encW k (decW w bs) = bs := by
  have h := leNat_lt bs
  have e : 256 ^ k = 2 ^ w := by rw [hk, Nat.pow_mul]
  rw [hb, e] at h
  simp only [encW, decW, BitVec.toNat_ofNat, Nat.mod_eq_of_lt h]
  rw [← hb, leBytes_leNat]

end Verif
