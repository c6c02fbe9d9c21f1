import Verif.Spec.Daedalus
import Verif.Lemmas.Stream
import Verif.Lemmas.Line

/-!
# Lemmas about instruction decoding
-/

namespace Verif.Daedalus

open Verif.Spec.Daedalus

/-- A statement about bytes follows from its 256 cases. -/
theorem forall_byte {P : Byte → Prop} (h : ∀ n : Fin 256, P (UInt8.ofFin n)) (c : Byte) : P c := by
  have := h c.toFin
  simpa using this

theorem ofByte_number (o : Op) (h : ∀ b, o ≠ .unknown b) : Op.ofByte (UInt8.ofNat (number o)) = o := by
  cases o <;> first | rfl | exact absurd rfl (h _)

theorem number_ofByte : ∀ c : Byte, number (Op.ofByte c) = c.toNat := by
  exact forall_byte (by decide +kernel)

/-- The shape of the operands of an opcode. -/
inductive Kind | plain | jump | imm | sym | elem
  deriving DecidableEq

def Op.kind : Op → Kind
  | .bl | .bz | .b => .jump
  | .pushi => .imm
  | .be | .pushv | .pushvi | .gmovi => .sym
  | .pushvv => .elem
  | _ => .plain

def decodeKind (op : Op) : Kind → Rd Instr
  | .jump => do let a ← Rd.u32; return { op := op, address := a, size := 5 }
  | .imm => do let a ← Rd.u32; return { op := op, immediate := a, size := 5 }
  | .sym => do let a ← Rd.u32; return { op := op, symbol := a, size := 5 }
  | .elem => do
    let y ← Rd.u32
    let i ← Rd.char
    return { op := op, symbol := y, index := i, size := 6 }
  | .plain => return { op := op }

theorem decode_eq : decode = (do let c ← Rd.char; decodeKind (Op.ofByte c) (Op.ofByte c).kind) := by
  unfold decode
  congr 1
  funext c
  generalize Op.ofByte c = o
  cases o <;> rfl

theorem kind_len (c : Byte) : instrLen c.toNat =
    match (Op.ofByte c).kind with
    | .plain => 1
    | .elem => 6
    | _ => 5 := by
  revert c
  exact forall_byte (by decide +kernel)

theorem u32_at (data : Bytes) (p : Nat) (hp : p ≤ data.length) :
    ∃ x, Rd.u32 ⟨data, p⟩ = .ok (x, ⟨data, min (p + 4) data.length⟩) := by
  exact Rd.word_ok 32 4 data p hp

theorem char_at (data : Bytes) (p : Nat) (hp : p ≤ data.length) :
    ∃ x, Rd.char ⟨data, p⟩ = .ok (x, ⟨data, min (p + 1) data.length⟩) := by
  have h : ∃ bs, Rd.readPadded 1 ⟨data, p⟩ = .ok (bs, ⟨data, min (p + 1) data.length⟩) := by
    unfold Rd.readPadded
    rw [Rd.read_eq _ _ hp]
    exact ⟨_, rfl⟩
  obtain ⟨bs, h⟩ := h
  exact ⟨bs.headD 0, by unfold Rd.char; rw [Rd.bind_ok h]; rfl⟩

theorem char_in (data : Bytes) (p : Nat) (hp : p < data.length) :
    Rd.char ⟨data, p⟩ = .ok (data[p], ⟨data, p + 1⟩) := by
  have := Reads.char data[p] (data.take p) (data.drop (p + 1))
  have hd : data.take p ++ [data[p]] ++ data.drop (p + 1) = data := by
    simp
  rw [hd] at this
  simpa [List.length_take, Nat.min_eq_left (Nat.le_of_lt hp)] using this

theorem decodeKind_at (op : Op) (k : Kind) (data : Bytes) (p : Nat) (hp : p ≤ data.length) :
    ∃ i, decodeKind op k ⟨data, p⟩ = .ok (i, ⟨data, min (p + match k with | .plain => 0 | .elem => 5 | _ => 4) data.length⟩) ∧
      i.op = op ∧ i.size = (match k with | .plain => 1 | .elem => 6 | _ => 5) := by
  obtain ⟨x, hx⟩ := u32_at data p hp
  cases k
  · refine ⟨{ op := op }, ?_, rfl, rfl⟩
    simp only [decodeKind, Rd.pure_def, Nat.add_zero]
    rw [Nat.min_eq_left hp]
  · refine ⟨{ op := op, address := x, size := 5 }, ?_, rfl, rfl⟩
    simp only [decodeKind]; rw [Rd.bind_ok hx]; rfl
  · refine ⟨{ op := op, immediate := x, size := 5 }, ?_, rfl, rfl⟩
    simp only [decodeKind]; rw [Rd.bind_ok hx]; rfl
  · refine ⟨{ op := op, symbol := x, size := 5 }, ?_, rfl, rfl⟩
    simp only [decodeKind]; rw [Rd.bind_ok hx]; rfl
  · obtain ⟨y, hy⟩ := char_at data (min (p + 4) data.length) (Nat.min_le_right _ _)
    refine ⟨{ op := op, symbol := x, index := y, size := 6 }, ?_, rfl, rfl⟩
    simp only [decodeKind]; rw [Rd.bind_ok hx, Rd.bind_ok hy]
    simp only [Rd.pure_def]
    congr 3
    omega

theorem decode_at (data : Bytes) (p : Nat) (hp : p < data.length) :
    ∃ i, decode ⟨data, p⟩ = .ok (i, ⟨data, min (p + instrLen data[p].toNat) data.length⟩) ∧
      i.op = Op.ofByte data[p] ∧ i.size = instrLen data[p].toNat := by
  rw [decode_eq, Rd.bind_ok (char_in data p hp)]
  obtain ⟨i, h1, h2, h3⟩ := decodeKind_at (Op.ofByte data[p]) (Op.ofByte data[p]).kind data (p + 1) hp
  refine ⟨i, ?_, h2, ?_⟩
  · rw [h1, kind_len]
    congr 3
    cases (Op.ofByte data[p]).kind <;> simp <;> omega
  · rw [h3, kind_len]

theorem reads_decode (i : Instr) (h : Canonical i) : Reads decode (assemble i) i := by
  obtain ⟨hs, ha, hi, hy, hx, hu⟩ := h
  have hop : Op.ofByte (UInt8.ofNat (number i.op)) = i.op := by
    by_cases h : ∃ b, i.op = .unknown b
    · obtain ⟨b, hb⟩ := h
      rw [hb]
      show Op.ofByte (UInt8.ofNat b.toNat) = _
      rw [UInt8.ofNat_toNat]
      match h' : Op.ofByte b with
      | .unknown c =>
        have := number_ofByte b
        rw [h'] at this
        simp only [number] at this
        rw [UInt8.toNat_inj.mp this]
      | .add | .sub | .mul | .div | .mod | .or | .andb | .lt | .gt | .movi | .orr | .and | .lsl | .lsr | .lte | .eq | .neq
      | .gte | .addmovi | .submovi | .mulmovi | .divmovi | .plus | .negate | .not | .cmpl | .nop | .rsr | .bl | .be
      | .pushi | .pushv | .pushvi | .movs | .movss | .movvf | .movf | .movvi | .b | .bz | .gmovi | .pushvv =>
        exact absurd (h' ▸ number_ofByte b) (hu b _ hb (by intro c hc; cases hc))
    · exact ofByte_number _ (fun b hb => h ⟨b, hb⟩)
  rw [decode_eq]
  have hc := Reads.char (UInt8.ofNat (number i.op))
  obtain ⟨op, a, y, m, x, sz⟩ := i
  dsimp only at *
  have bindc : ∀ {bs : Bytes}, Reads (decodeKind op op.kind) bs ⟨op, a, y, m, x, sz⟩ →
      Reads (do let c ← Rd.char; decodeKind (Op.ofByte c) (Op.ofByte c).kind) ([UInt8.ofNat (number op)] ++ bs)
        ⟨op, a, y, m, x, sz⟩ := by
    intro bs hb
    refine Reads.bind hc ?_
    rw [hop]
    exact hb
  unfold assemble
  cases op
  case bl | bz | b =>
    refine bindc (bs := encW 4 a) ?_
    simp only [Op.kind, decodeKind]
    refine (Reads.bind_pure (Reads.u32 a)).congr rfl ?_
    rw [hs, hi (by simp), hy (by simp), hx (by simp)]; rfl
  case pushi =>
    refine bindc (bs := encW 4 m) ?_
    simp only [Op.kind, decodeKind]
    refine (Reads.bind_pure (Reads.u32 m)).congr rfl ?_
    rw [hs, ha (by simp), hy (by simp), hx (by simp)]; rfl
  case be | pushv | pushvi | gmovi =>
    refine bindc (bs := encW 4 y) ?_
    simp only [Op.kind, decodeKind]
    refine (Reads.bind_pure (Reads.u32 y)).congr rfl ?_
    rw [hs, ha (by simp), hi (by simp), hx (by simp)]; rfl
  case pushvv =>
    refine bindc (bs := encW 4 y ++ [x]) ?_
    simp only [Op.kind, decodeKind]
    refine Reads.bind (Reads.u32 y) ((Reads.bind_pure (Reads.char x)).congr rfl ?_)
    rw [hs, ha (by simp), hi (by simp)]; rfl
  case unknown b =>
    refine bindc (bs := []) ?_
    simp only [Op.kind, decodeKind]
    refine (Reads.pure _).congr rfl ?_
    have : instrLen (number (.unknown b)) = 1 := by
      simp only [number]
      rw [kind_len, ← UInt8.ofNat_toNat (x := b)]
      simp only [number] at hop
      rw [hop]; rfl
    rw [hs, ha (by simp), hi (by simp), hy (by simp), hx (by simp), this]
  all_goals
    refine bindc (bs := []) ?_
    simp only [Op.kind, decodeKind]
    refine (Reads.pure _).congr rfl ?_
    rw [hs, ha (by simp), hi (by simp), hy (by simp), hx (by simp)]; rfl

end Verif.Daedalus
