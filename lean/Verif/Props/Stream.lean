import Verif.Lemmas.Line

/-!
# C01, C03, C06: scalars and lines
-/

namespace Verif.Props

/-- A value together with the call that writes it. `float`s are bit patterns, signed integers are their
two's complement pattern. -/
inductive Val where
  | ubyte (v : BitVec 8)
  | ushort (v : BitVec 16)
  | uint (v : BitVec 32)
  | float (v : F32)
  | str (v : Bytes)
  | vec2 (v : Vec2)
  | vec3 (v : Vec3)
  | mat3 (m : Mat3)
  | mat4 (m : Mat4)
  | date (d : Date)
  | aabb (b : Aabb)
  deriving DecidableEq

/-- The call that writes the value (`write_ubyte`, ..., `Date::save`, `AxisAlignedBoundingBox::save`). -/
def Val.write : Val → Ws → Ws
  | ubyte v => Ws.u8 v
  | ushort v => Ws.u16 v
  | uint v => Ws.u32 v
  | float v => Ws.f32 v
  | str v => Ws.string v
  | vec2 v => Ws.vec2 v
  | vec3 v => Ws.vec3 v
  | mat3 m => Ws.mat3 m
  | mat4 m => Ws.mat4 m
  | date d => d.save
  | aabb b => b.save

/-- The matching call that reads a value of the same kind. Only the kind (and the length of a string) of the
argument is used. -/
def Val.readLike : Val → Rd Val
  | ubyte _ => do return ubyte (← Rd.u8)
  | ushort _ => do return ushort (← Rd.u16)
  | uint _ => do return uint (← Rd.u32)
  | float _ => do return float (← Rd.f32)
  | str v => do return str (← Rd.string v.length)
  | vec2 _ => do return vec2 (← Rd.vec2)
  | vec3 _ => do return vec3 (← Rd.vec3)
  | mat3 _ => do return mat3 (← Rd.mat3)
  | mat4 _ => do return mat4 (← Rd.mat4)
  | date _ => do return date (← Date.load)
  | aabb _ => do return aabb (← Aabb.load)

/-- Number of bytes a value occupies. -/
def Val.size : Val → Nat
  | ubyte _ => 1
  | ushort _ => 2
  | uint _ => 4
  | float _ => 4
  | str v => v.length
  | vec2 _ => 8
  | vec3 _ => 12
  | mat3 _ => 36
  | mat4 _ => 64
  | date _ => 16
  | aabb _ => 24

/-- The matching reads for a list of values. -/
def readAllLike : List Val → Rd (List Val)
  | [] => return []
  | v :: vs => do
    let a ← v.readLike
    let as ← readAllLike vs
    return a :: as

theorem Val.codec (v : Val) : ∃ bs, bs.length = v.size ∧ Emits v.write bs ∧ Reads v.readLike bs v := by
  cases v with
  | ubyte v => exact ⟨_, encW_length 1 v, Emits.u8 v, (Reads.u8 v).bind_pure⟩
  | ushort v => exact ⟨_, encW_length 2 v, Emits.u16 v, (Reads.u16 v).bind_pure⟩
  | uint v => exact ⟨_, encW_length 4 v, Emits.u32 v, (Reads.u32 v).bind_pure⟩
  | float v => exact ⟨_, encW_length 4 v, Emits.f32 v, (Reads.f32 v).bind_pure⟩
  | str v => exact ⟨_, rfl, Emits.string v, (Reads.string v).bind_pure⟩
  | vec2 v => exact ⟨_, v.mem_length, Emits.vec2 v, (Reads.vec2 v).bind_pure⟩
  | vec3 v => exact ⟨_, v.mem_length, Emits.vec3 v, (Reads.vec3 v).bind_pure⟩
  | mat3 v => exact ⟨_, v.transpose.mem_length, Emits.mat3 v, (Reads.mat3 v).bind_pure⟩
  | mat4 v => exact ⟨_, v.transpose.mem_length, Emits.mat4 v, (Reads.mat4 v).bind_pure⟩
  | date d => exact ⟨_, by simp [Date.enc, Val.size], Emits.date d, (Reads.date d).bind_pure⟩
  | aabb b => exact ⟨_, by simp [Aabb.enc, Val.size, Vec3.mem_length], Emits.aabb b, (Reads.aabb b).bind_pure⟩

/-- C01: whatever the writer contains and wherever it is positioned, values that are written one after
another are read back, bit for bit, by the matching reads starting at the same offset, and exactly the
written number of bytes is consumed. -/
theorem c01_scalar_round_trip (vs : List Val) (w : Ws) (hw : w.pos ≤ w.data.length) (post : Bytes) :
    let w' := vs.foldl (fun w v => v.write w) w
    readAllLike vs ⟨w'.data ++ post, w.pos⟩ = .ok (vs, ⟨w'.data ++ post, w'.pos⟩) ∧
      w'.pos = w.pos + (vs.map Val.size).sum := by
  have key : ∃ bs, bs.length = (vs.map Val.size).sum ∧ Emits (fun w => vs.foldl (fun w v => v.write w) w) bs ∧
      Reads (readAllLike vs) bs vs := by
    induction vs with
    | nil => exact ⟨[], rfl, Emits.id, Reads.pure _⟩
    | cons v vs ih =>
      obtain ⟨b1, l1, e1, r1⟩ := v.codec
      obtain ⟨b2, l2, e2, r2⟩ := ih
      exact ⟨b1 ++ b2, by simp [l1, l2], e1.comp e2, r1.bind r2.bind_pure⟩
  obtain ⟨bs, hl, he, hr⟩ := key
  simp only [he w hw]
  exact ⟨hr.of_write w hw post, by simp [Ws.write, hl]⟩

example : (Val.write (.ushort 0x1234) ⟨[9, 9, 9, 9, 9], 2⟩).data = [9, 9, 0x34, 0x12, 9] := by decide

/-- C03: a fixed-length read at or before the end of the stream gives what is left, padded with zeros, and
the stream is at its end iff something was missing or it was used up. -/
theorem c03_short_read (data : Bytes) (pos k : Nat) (hp : pos ≤ data.length) :
    Rd.string k ⟨data, pos⟩ =
      .ok ((data.drop pos).take k ++ List.replicate (k - (data.length - pos)) 0, ⟨data, min (pos + k) data.length⟩) := by
  simp only [Rd.string, Rd.readPadded, Rd.read_eq k ⟨data, pos⟩ hp]
  have : (List.take k (List.drop pos data)).length = min k (data.length - pos) := by simp
  rw [this]
  have : k - min k (data.length - pos) = k - (data.length - pos) := by omega
  rw [this]

/-- C03: a scalar read past the end is the little endian value of the bytes that are left. -/
theorem c03_short_scalar (w k : Nat) (data : Bytes) (pos : Nat) (hp : pos ≤ data.length) :
    Rd.word w k ⟨data, pos⟩ =
      .ok (BitVec.ofNat w (leNat ((data.drop pos).take k)), ⟨data, min (pos + k) data.length⟩) := by
  have h := c03_short_read data pos k hp
  unfold Rd.string at h
  unfold Rd.word
  rw [Rd.bind_ok h]
  simp only [decW, leNat_append_zeros, Rd.pure_def]

/-- C03: a read that is short leaves the stream at eof. -/
theorem c03_short_eof (data : Bytes) (pos k : Nat) (hp : pos ≤ data.length) (hk : data.length ≤ pos + k) :
    ∃ v s, Rd.string k ⟨data, pos⟩ = .ok (v, s) ∧ v.length = k ∧ Rd.eof s = .ok (true, s) := by
  refine ⟨_, _, c03_short_read data pos k hp, by simp; omega, ?_⟩
  simp [Rd.eof]; omega

example : Rd.u32 ⟨[1, 2, 3, 4, 5, 6], 4⟩ = .ok (0x605, ⟨[1, 2, 3, 4, 5, 6], 6⟩) := by decide
example : Rd.string 3 ⟨[1, 2], 1⟩ = .ok ([2, 0, 0], ⟨[1, 2], 2⟩) := by decide

/-- C06: a line is read back by `read_line(false)` iff it is free of NUL, CR and LF; then exactly the line
and its terminator are consumed. -/
theorem c06_line_round_trip (v : Bytes) (w : Ws) (hw : w.pos ≤ w.data.length) (post : Bytes) :
    let w' := Ws.line v w
    ∃ r s, Rd.line false ⟨w'.data ++ post, w.pos⟩ = .ok (r, s) ∧
      (r = v ↔ NoEol v) ∧ (NoEol v → s = ⟨w'.data ++ post, w'.pos⟩ ∧ w'.pos = w.pos + v.length + 1) := by
  simp only [Emits.line v w hw]
  have hp : w.pos ≤ ((w.write (v ++ [10])).data ++ post).length := by
    have := Ws.write_le w (v ++ [10]) hw
    simp [Ws.write] at this ⊢
    omega
  have hdrop : ∃ rest, List.drop w.pos ((w.write (v ++ [10])).data ++ post) = v ++ 10 :: rest := by
    simp only [Ws.write, splice_le _ _ _ hw]
    have : (w.data.take w.pos).length = w.pos := by simp; omega
    refine ⟨w.data.drop (w.pos + (v ++ [10]).length) ++ post, ?_⟩
    simp only [List.append_assoc]
    rw [List.drop_append_of_le_length (by omega), List.drop_of_length_le (by omega)]
    simp
  obtain ⟨rest, hdrop⟩ := hdrop
  by_cases hv : NoEol v
  · have h := (Reads.lineLf v hv).of_write w hw post
    exact ⟨_, _, h, by simp [hv], fun _ => ⟨rfl, by simp [Ws.write, Nat.add_assoc]⟩⟩
  · refine ⟨_, _, line_false_eq _ _ hp, ?_, fun h => absurd h hv⟩
    rw [hdrop]
    constructor
    · intro h
      exfalso
      apply hv
      rw [noEol_iff]
      intro c hc
      have hmem : c ∈ lineOf (v ++ 10 :: rest) := by rw [h]; exact hc
      have hall : (lineOf (v ++ 10 :: rest)).all (fun c => !Rd.isEol c) = true := List.all_takeWhile
      have := List.all_eq_true.1 hall c hmem
      simpa using this
    · intro h; exact absurd h hv

/-- C06: `read_line(true)` consumes the line, its terminator and the run of whitespace behind it, and nothing
else. Partial: the stream must not end with a single NUL right behind that run, see
`c06_trailing_nul_violation`. -/
theorem c06_line_skipws_partial (pre v ws post : Bytes) (hv : NoEol v)
    (hws : ∀ c ∈ ws, c ∈ b!" \t\r\n" ++ [11, 12])
    (hpost : ∀ c rest, post = c :: rest → c ∉ b!" \t\r\n" ++ [11, 12]) (hnul : post ≠ [0]) :
    Rd.line true ⟨pre ++ (v ++ 10 :: ws) ++ post, pre.length⟩ =
      .ok (v, ⟨pre ++ (v ++ 10 :: ws) ++ post, pre.length + (v ++ 10 :: ws).length⟩) := by
  have e : b!" \t\r\n" ++ [11, 12] = Rd.lineSpaces := by decide
  rw [e] at hws hpost
  unfold Rd.line
  exact lineThenIgnore_eq Rd.lineSpaces (by decide) pre v ws post 10 hv (.inr rfl)
    (fun c hc => ⟨by have := hws c hc; rintro rfl; revert this; decide, hws c hc⟩)
    (fun c rest h => .inr (hpost c rest h)) hnul

/-- C06: a NUL that is the last byte of the stream is consumed although it is not whitespace. -/
theorem c06_trailing_nul_violation :
    Rd.line true ⟨b!"ab\n" ++ [0], 0⟩ = .ok (b!"ab", ⟨b!"ab\n" ++ [0], 4⟩) := by decide

example : Rd.line true ⟨b!"ab\n \t\nc", 0⟩ = .ok (b!"ab", ⟨b!"ab\n \t\nc", 6⟩) := by decide
example : NoEol b!"some line" := by decide

end Verif.Props
