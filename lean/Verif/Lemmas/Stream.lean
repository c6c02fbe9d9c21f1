import Verif.Model.StreamTypes

/-! # Lemmas about the stream model -/

namespace Verif

/-- `Reads p bs a`: in every stream that contains `bs` at the current position, whatever precedes
and follows, `p` returns `a` and moves the position exactly behind `bs`. -/
def Reads {α} (p : Rd α) (bs : Bytes) (a : α) : Prop :=
  ∀ pre post : Bytes,
    p ⟨pre ++ bs ++ post, pre.length⟩ = .ok (a, ⟨pre ++ bs ++ post, pre.length + bs.length⟩)

/-- As `Reads`, for streams whose bytes after `bs` satisfy `Q`. -/
def ReadsIf {α} (p : Rd α) (bs : Bytes) (a : α) (Q : Bytes → Prop) : Prop :=
  ∀ pre post : Bytes, Q post →
    p ⟨pre ++ bs ++ post, pre.length⟩ = .ok (a, ⟨pre ++ bs ++ post, pre.length + bs.length⟩)

/-- `Appends f bs`: run at the end of a growing writer, `f` appends exactly `bs`. -/
def Appends (f : Ws → Ws) (bs : Bytes) : Prop :=
  ∀ d : Bytes, f ⟨d, d.length⟩ = ⟨d ++ bs, d.length + bs.length⟩

namespace Rd

@[simp] theorem pure_def {α} (a : α) (s : Rs) : (Pure.pure a : Rd α) s = .ok (a, s) := rfl

theorem bind_def {α β} (p : Rd α) (f : α → Rd β) (s : Rs) :
    (p >>= f) s = (match p s with
      | .ok (a, s') => f a s'
      | .error e => .error e) := rfl

theorem bind_ok {α β} {p : Rd α} {f : α → Rd β} {s s' : Rs} {a : α}
    (h : p s = .ok (a, s')) : (p >>= f) s = f a s' := by
  rw [bind_def, h]

theorem bind_err {α β} {p : Rd α} {f : α → Rd β} {s : Rs} {e : Fail}
    (h : p s = .error e) : (p >>= f) s = .error e := by
  rw [bind_def, h]

theorem bind_assoc {α β γ} (p : Rd α) (f : α → Rd β) (g : β → Rd γ) :
    (p >>= f) >>= g = p >>= fun a => f a >>= g := by
  funext s
  simp only [bind_def]
  cases p s with
  | ok x => rfl
  | error e => rfl

@[simp] theorem pure_bind' {α β} (a : α) (f : α → Rd β) : (Pure.pure a >>= f) = f a := rfl

theorem map_def {α β} (f : α → β) (p : Rd α) : f <$> p = p >>= fun a => Pure.pure (f a) := rfl

/-- Closed form of `read`. -/
theorem read_eq (n : Nat) (s : Rs) (h : s.pos ≤ s.data.length) :
    read n s = .ok ((s.data.drop s.pos).take n, { s with pos := min (s.pos + n) s.data.length }) := by
  unfold read
  by_cases hc : s.pos + n > s.data.length
  · simp only [hc, if_true]
    have e1 : List.take (s.data.length - s.pos) (List.drop s.pos s.data)
        = List.take n (List.drop s.pos s.data) := by
      rw [List.take_of_length_le (by simp), List.take_of_length_le (by simp; omega)]
    have e2 : s.pos + (s.data.length - s.pos) = min (s.pos + n) s.data.length := by omega
    simp only [e1, e2]
  · simp only [hc, if_false]
    have e2 : s.pos + n = min (s.pos + n) s.data.length := by omega
    rw [← e2]

/-- A scalar read never fails; it moves forward and stays inside of the stream. -/
theorem word_ok (w k : Nat) (data : Bytes) (p : Nat) (hp : p ≤ data.length) :
    ∃ v, word w k ⟨data, p⟩ = .ok (v, ⟨data, min (p + k) data.length⟩) := by
  have h : ∃ bs, readPadded k ⟨data, p⟩ = .ok (bs, ⟨data, min (p + k) data.length⟩) := by
    unfold readPadded
    rw [read_eq _ _ hp]
    exact ⟨_, rfl⟩
  obtain ⟨bs, h⟩ := h
  exact ⟨decW w bs, by unfold word; rw [bind_ok h]; rfl⟩

theorem seek_ok {off : Int} {w : Whence} {data : Bytes} {pos t : Nat}
    (h : seekTarget pos data.length off w = (t : Int)) (ht : t ≤ data.length) :
    seek off w ⟨data, pos⟩ = .ok ((), ⟨data, t⟩) := by
  unfold seek
  simp only [h]
  rw [if_neg (by omega)]
  simp

theorem seek_ignored {off : Int} {w : Whence} {data : Bytes} {pos : Nat}
    (h : seekTarget pos data.length off w < 0 ∨ seekTarget pos data.length off w > data.length) :
    seek off w ⟨data, pos⟩ = .ok ((), ⟨data, pos⟩) := by
  unfold seek
  exact if_pos h

theorem seek_beg {data : Bytes} {pos t : Nat} (ht : t ≤ data.length) :
    seek (t : Int) .beg ⟨data, pos⟩ = .ok ((), ⟨data, t⟩) := seek_ok rfl ht

end Rd

namespace Reads

theorem pure {α} (a : α) : Reads (Pure.pure a : Rd α) [] a := by
  intro pre post; simp

theorem bind {α β} {p : Rd α} {f : α → Rd β} {b1 b2 : Bytes} {a : α} {b : β}
    (h1 : Reads p b1 a) (h2 : Reads (f a) b2 b) : Reads (p >>= f) (b1 ++ b2) b := by
  intro pre post
  have e1 := h1 pre (b2 ++ post)
  have e2 := h2 (pre ++ b1) post
  simp only [List.append_assoc] at e1 e2 ⊢
  rw [Rd.bind_ok e1]
  simp only [List.length_append, Nat.add_assoc] at e2 ⊢
  exact e2

theorem bind_pure {α β} {p : Rd α} {f : α → β} {bs : Bytes} {a : α}
    (h : Reads p bs a) : Reads (p >>= fun x => (Pure.pure (f x) : Rd β)) bs (f a) := by
  have := h.bind (f := fun x => (Pure.pure (f x) : Rd β)) (Reads.pure (f a))
  simpa using this

theorem congr {α} {p : Rd α} {bs bs' : Bytes} {a a' : α} (h : Reads p bs a)
    (hb : bs = bs') (ha : a = a') : Reads p bs' a' := by
  subst hb; subst ha; exact h

theorem toIf {α} {p : Rd α} {bs : Bytes} {a : α} (h : Reads p bs a) (Q : Bytes → Prop) :
    ReadsIf p bs a Q := fun pre post _ => h pre post

theorem times {α} {p : Rd α} {enc : α → Bytes} (as : List α)
    (h : ∀ a ∈ as, Reads p (enc a) a) : Reads (Rd.times p as.length) (as.map enc).flatten as := by
  induction as with
  | nil => exact Reads.pure []
  | cons a as ih =>
    simp only [List.length_cons, Rd.times, List.map_cons, List.flatten_cons]
    refine (h a (by simp)).bind ?_
    exact (ih (fun b hb => h b (by simp [hb]))).bind_pure

theorem read (bs : Bytes) : Reads (Rd.read bs.length) bs bs := by
  intro pre post
  rw [Rd.read_eq _ _ (by simp)]
  simp

theorem readPadded (bs : Bytes) : Reads (Rd.readPadded bs.length) bs bs := by
  intro pre post
  have := Reads.read bs pre post
  unfold Rd.readPadded
  rw [this]
  simp

theorem word {w : Nat} (k : Nat) (hk : w = 8 * k) (v : BitVec w) :
    Reads (Rd.word w k) (encW k v) v := by
  have h := (readPadded (encW k v)).bind_pure (f := decW w)
  rw [decW_encW k hk] at h
  simpa [Rd.word] using h

theorem u8 (v : BitVec 8) : Reads Rd.u8 (encW 1 v) v := word 1 rfl v
theorem u16 (v : BitVec 16) : Reads Rd.u16 (encW 2 v) v := word 2 rfl v
theorem u32 (v : BitVec 32) : Reads Rd.u32 (encW 4 v) v := word 4 rfl v
theorem f32 (v : BitVec 32) : Reads Rd.f32 (encW 4 v) v := word 4 rfl v

theorem char (b : Byte) : Reads Rd.char [b] b := by
  have h := (readPadded [b]).bind_pure (f := fun bs => bs.headD 0)
  simpa [Rd.char] using h

theorem string (bs : Bytes) : Reads (Rd.string bs.length) bs bs := readPadded bs

end Reads

namespace ReadsIf

theorem bind {α β} {p : Rd α} {f : α → Rd β} {b1 b2 : Bytes} {a : α} {b : β} {Q R : Bytes → Prop}
    (h1 : ReadsIf p b1 a Q) (h2 : ReadsIf (f a) b2 b R) (hq : ∀ post, R post → Q (b2 ++ post)) :
    ReadsIf (p >>= f) (b1 ++ b2) b R := by
  intro pre post hr
  have e1 := h1 pre (b2 ++ post) (hq post hr)
  have e2 := h2 (pre ++ b1) post hr
  simp only [List.append_assoc] at e1 e2 ⊢
  rw [Rd.bind_ok e1]
  simp only [List.length_append, Nat.add_assoc] at e2 ⊢
  exact e2

theorem pure {α} (a : α) (Q : Bytes → Prop) : ReadsIf (Pure.pure a : Rd α) [] a Q :=
  (Reads.pure a).toIf Q

theorem bind_pure {α β} {p : Rd α} {f : α → β} {bs : Bytes} {a : α} {Q : Bytes → Prop}
    (h : ReadsIf p bs a Q) : ReadsIf (p >>= fun x => (Pure.pure (f x) : Rd β)) bs (f a) Q := by
  have := h.bind (f := fun x => (Pure.pure (f x) : Rd β)) (ReadsIf.pure (f a) Q) (by simp)
  simpa using this

theorem mono {α} {p : Rd α} {bs : Bytes} {a : α} {Q R : Bytes → Prop} (h : ReadsIf p bs a Q)
    (hqr : ∀ post, R post → Q post) : ReadsIf p bs a R :=
  fun pre post hr => h pre post (hqr post hr)

theorem congr {α} {p : Rd α} {bs bs' : Bytes} {a a' : α} {Q : Bytes → Prop} (h : ReadsIf p bs a Q)
    (hb : bs = bs') (ha : a = a') : ReadsIf p bs' a' Q := by
  subst hb; subst ha; exact h

end ReadsIf

theorem splice_end (d bs : Bytes) : splice d d.length bs = d ++ bs := by
  simp [splice]

namespace Appends

theorem write (bs : Bytes) : Appends (Ws.write bs) bs := by
  intro d; simp [Ws.write, splice_end]

theorem word {n : Nat} (k : Nat) (v : BitVec n) : Appends (Ws.word k v) (encW k v) := write _

theorem id : Appends id [] := by intro d; simp

theorem comp {f g : Ws → Ws} {a b : Bytes} (hf : Appends f a) (hg : Appends g b) :
    Appends (fun w => g (f w)) (a ++ b) := by
  intro d
  have e2 := hg (d ++ a)
  simp only [hf d]
  simp only [List.length_append, List.append_assoc, Nat.add_assoc] at e2 ⊢
  exact e2

theorem congr {f : Ws → Ws} {a b : Bytes} (hf : Appends f a) (h : a = b) : Appends f b := h ▸ hf

end Appends

end Verif

namespace Verif

/-- `Emits f bs`: at any position inside of a growing writer, `f` has the effect of one write of `bs`. -/
def Emits (f : Ws → Ws) (bs : Bytes) : Prop :=
  ∀ w : Ws, w.pos ≤ w.data.length → f w = w.write bs

theorem splice_le (d bs : Bytes) (p : Nat) (h : p ≤ d.length) :
    splice d p bs = d.take p ++ bs ++ d.drop (p + bs.length) := by
  unfold splice
  by_cases hc : p + bs.length ≤ d.length
  · have : p + bs.length - d.length = 0 := by omega
    simp [this]
  · simp only [List.take_append_of_le_length h]
    rw [List.drop_of_length_le (by simp; omega), List.drop_of_length_le (by omega)]

theorem splice_splice (d a b : Bytes) (p : Nat) (h : p ≤ d.length) :
    splice (splice d p a) (p + a.length) b = splice d p (a ++ b) := by
  rw [splice_le d a p h, splice_le d (a ++ b) p h, splice_le _ _ _ (by simp; omega)]
  have hl : (d.take p ++ a).length = p + a.length := by simp; omega
  rw [← hl, List.take_left]
  rw [List.drop_append, hl]
  have e0 : List.drop ((d.take p ++ a).length + b.length) (d.take p ++ a) = [] :=
    List.drop_of_length_le (by omega)
  rw [hl] at e0
  rw [e0, List.nil_append, Nat.add_sub_cancel_left, List.drop_drop]
  simp [Nat.add_assoc]

theorem Ws.write_le (w : Ws) (bs : Bytes) (h : w.pos ≤ w.data.length) :
    (w.write bs).pos ≤ (w.write bs).data.length := by
  simp only [Ws.write, splice_le _ _ _ h, List.length_append, List.length_take, List.length_drop]
  omega

theorem Ws.write_write (w : Ws) (a b : Bytes) (h : w.pos ≤ w.data.length) :
    (w.write a).write b = w.write (a ++ b) := by
  simp only [Ws.write, splice_splice _ _ _ _ h, List.length_append, Nat.add_assoc]

theorem Ws.write_nil (w : Ws) (h : w.pos ≤ w.data.length) : w.write [] = w := by
  simp [Ws.write, splice_le _ _ _ h]

namespace Emits

theorem write (bs : Bytes) : Emits (Ws.write bs) bs := fun _ _ => rfl

theorem word {n : Nat} (k : Nat) (v : BitVec n) : Emits (Ws.word k v) (encW k v) := write _

theorem id : Emits (fun w => w) [] := fun w h => (w.write_nil h).symm

theorem comp {f g : Ws → Ws} {a b : Bytes} (hf : Emits f a) (hg : Emits g b) :
    Emits (fun w => g (f w)) (a ++ b) := by
  intro w h
  simp only [hf w h]
  rw [hg _ (w.write_le a h), w.write_write a b h]

theorem congr {f : Ws → Ws} {a b : Bytes} (hf : Emits f a) (h : a = b) : Emits f b := h ▸ hf

theorem appends {f : Ws → Ws} {a : Bytes} (hf : Emits f a) : Appends f a := by
  intro d
  rw [hf _ (by simp)]
  exact Appends.write a d

theorem foldl {α} (f : α → Ws → Ws) (enc : α → Bytes) (h : ∀ a, Emits (f a) (enc a)) (as : List α) :
    Emits (fun w => as.foldl (fun w a => f a w) w) (as.map enc).flatten := by
  induction as with
  | nil => exact id
  | cons a as ih => exact (h a).comp ih

end Emits

/-- Reading back what was just written, in place. -/
theorem Reads.of_write {α} {p : Rd α} {bs : Bytes} {a : α} (h : Reads p bs a) (w : Ws)
    (hw : w.pos ≤ w.data.length) (post : Bytes) :
    p ⟨(w.write bs).data ++ post, w.pos⟩ = .ok (a, ⟨(w.write bs).data ++ post, (w.write bs).pos⟩) := by
  have hl : (w.data.take w.pos).length = w.pos := by simp; omega
  have := h (w.data.take w.pos) (w.data.drop (w.pos + bs.length) ++ post)
  rw [hl] at this
  simp only [Ws.write, splice_le _ _ _ hw]
  simpa [List.append_assoc] using this

/-! ### Composite values -/

/-- Consecutive floats in memory. -/
def floatMem (vs : List F32) : Bytes := (vs.map (encW 4)).flatten

theorem floatMem_length (vs : List F32) : (floatMem vs).length = 4 * vs.length := by
  induction vs with
  | nil => rfl
  | cons v vs ih => simp [floatMem] at ih ⊢; omega

theorem f32At_floatMem (vs : List F32) (i : Nat) (h : i < vs.length) : f32At (floatMem vs) i = vs[i] := by
  induction vs generalizing i with
  | nil => simp at h
  | cons v vs ih =>
    have h4 : (encW 4 v).length = 4 := encW_length 4 v
    cases i with
    | zero =>
      simp only [f32At, floatMem, List.map_cons, List.flatten_cons, Nat.mul_zero, List.drop_zero,
        List.getElem_cons_zero]
      have : List.take 4 (encW 4 v ++ (vs.map (encW 4)).flatten) = encW 4 v := by
        conv => lhs; rw [← h4]
        exact List.take_left
      rw [this]
      exact decW_encW 4 rfl v
    | succ i =>
      have hi : i < vs.length := by simpa using h
      have := ih i hi
      simp only [f32At, floatMem, List.map_cons, List.flatten_cons, List.getElem_cons_succ] at this ⊢
      rw [← this]
      have e : 4 * (i + 1) = (encW 4 v).length + 4 * i := by omega
      rw [e, ← List.drop_drop, List.drop_left]

theorem Vec2.mem_eq (v : Vec2) : v.mem = floatMem [v.x, v.y] := by simp [Vec2.mem, floatMem]
theorem Vec3.mem_eq (v : Vec3) : v.mem = floatMem [v.x, v.y, v.z] := by simp [Vec3.mem, floatMem]
theorem Vec4.mem_eq (v : Vec4) : v.mem = floatMem [v.x, v.y, v.z, v.w] := by simp [Vec4.mem, floatMem]
theorem Mat3.mem_eq (m : Mat3) : m.mem =
    floatMem [m.c0.x, m.c0.y, m.c0.z, m.c1.x, m.c1.y, m.c1.z, m.c2.x, m.c2.y, m.c2.z] := by
  simp [Mat3.mem, Vec3.mem, floatMem]
theorem Mat4.mem_eq (m : Mat4) : m.mem =
    floatMem [m.c0.x, m.c0.y, m.c0.z, m.c0.w, m.c1.x, m.c1.y, m.c1.z, m.c1.w,
      m.c2.x, m.c2.y, m.c2.z, m.c2.w, m.c3.x, m.c3.y, m.c3.z, m.c3.w] := by
  simp [Mat4.mem, Vec4.mem, floatMem]

theorem Vec2.mem_length (v : Vec2) : v.mem.length = 8 := by rw [v.mem_eq, floatMem_length]; rfl
theorem Vec3.mem_length (v : Vec3) : v.mem.length = 12 := by rw [v.mem_eq, floatMem_length]; rfl
theorem Vec4.mem_length (v : Vec4) : v.mem.length = 16 := by rw [v.mem_eq, floatMem_length]; rfl
theorem Mat3.mem_length (m : Mat3) : m.mem.length = 36 := by rw [m.mem_eq, floatMem_length]; rfl
theorem Mat4.mem_length (m : Mat4) : m.mem.length = 64 := by rw [m.mem_eq, floatMem_length]; rfl

theorem Reads.floats {β} (vs : List F32) (n : Nat) (hn : n = 4 * vs.length) (f : Bytes → β) (b : β)
    (h : f (floatMem vs) = b) :
    Reads (Rd.readPadded n >>= fun m => (Pure.pure (f m) : Rd β)) (floatMem vs) b := by
  have := (Reads.readPadded (floatMem vs)).bind_pure (f := f)
  rw [floatMem_length, ← hn, h] at this
  exact this

theorem Reads.vec2 (v : Vec2) : Reads Rd.vec2 v.mem v := by
  rw [v.mem_eq]
  refine Reads.floats [v.x, v.y] 8 rfl _ _ ?_
  rw [f32At_floatMem _ 0 (by simp), f32At_floatMem _ 1 (by simp)]; rfl

theorem Reads.vec3 (v : Vec3) : Reads Rd.vec3 v.mem v := by
  rw [v.mem_eq]
  refine Reads.floats [v.x, v.y, v.z] 12 rfl _ _ ?_
  rw [f32At_floatMem _ 0 (by simp), f32At_floatMem _ 1 (by simp), f32At_floatMem _ 2 (by simp)]; rfl

theorem Reads.mat3 (m : Mat3) : Reads Rd.mat3 m.transpose.mem m := by
  rw [m.transpose.mem_eq]
  refine Reads.floats _ 36 rfl _ _ ?_
  repeat rw [f32At_floatMem _ _ (by simp)]
  rfl

theorem Reads.mat4 (m : Mat4) : Reads Rd.mat4 m.transpose.mem m := by
  rw [m.transpose.mem_eq]
  refine Reads.floats _ 64 rfl _ _ ?_
  repeat rw [f32At_floatMem _ _ (by simp)]
  rfl

/-- The bytes of a date. -/
def Date.enc (d : Date) : Bytes :=
  encW 4 d.year ++ encW 2 d.month ++ encW 2 d.day ++ encW 2 d.hour ++ encW 2 d.minute ++ encW 2 d.second
    ++ encW 2 (0 : BitVec 16)

theorem Reads.date (d : Date) : Reads Date.load d.enc d := by
  refine Reads.congr (Reads.bind (Reads.u32 d.year) (Reads.bind (Reads.u16 d.month)
    (Reads.bind (Reads.u16 d.day) (Reads.bind (Reads.u16 d.hour) (Reads.bind (Reads.u16 d.minute)
      (Reads.bind (Reads.u16 d.second) (Reads.bind (Reads.u16 0) (Reads.pure _)))))))) ?_ rfl
  simp [Date.enc]

/-- The bytes of an axis aligned bounding box. -/
def Aabb.enc (b : Aabb) : Bytes := b.min.mem ++ b.max.mem

theorem Reads.aabb (b : Aabb) : Reads Aabb.load b.enc b := by
  refine Reads.congr (Reads.bind (Reads.vec3 b.min) (Reads.bind (Reads.vec3 b.max) (Reads.pure _))) ?_ rfl
  simp [Aabb.enc]

theorem Emits.vec2 (v : Vec2) : Emits (Ws.vec2 v) v.mem := Emits.write _
theorem Emits.vec3 (v : Vec3) : Emits (Ws.vec3 v) v.mem := Emits.write _
theorem Emits.mat3 (m : Mat3) : Emits (Ws.mat3 m) m.transpose.mem := Emits.write _
theorem Emits.mat4 (m : Mat4) : Emits (Ws.mat4 m) m.transpose.mem := Emits.write _
theorem Emits.u8 (v : BitVec 8) : Emits (Ws.u8 v) (encW 1 v) := Emits.word 1 v
theorem Emits.u16 (v : BitVec 16) : Emits (Ws.u16 v) (encW 2 v) := Emits.word 2 v
theorem Emits.u32 (v : BitVec 32) : Emits (Ws.u32 v) (encW 4 v) := Emits.word 4 v
theorem Emits.f32 (v : F32) : Emits (Ws.f32 v) (encW 4 v) := Emits.word 4 v
theorem Emits.string (v : Bytes) : Emits (Ws.string v) v := Emits.write v
theorem Emits.string0 (v : Bytes) : Emits (Ws.string0 v) (v ++ [0]) := (Emits.write v).comp (Emits.write [0])
theorem Emits.line (v : Bytes) : Emits (Ws.line v) (v ++ [10]) := (Emits.write v).comp (Emits.write [10])
theorem Emits.date (d : Date) : Emits d.save d.enc := by
  have h := ((((((Emits.u32 d.year).comp (Emits.u16 d.month)).comp (Emits.u16 d.day)).comp
    (Emits.u16 d.hour)).comp (Emits.u16 d.minute)).comp (Emits.u16 d.second)).comp (Emits.u16 0)
  exact h

theorem Emits.aabb (b : Aabb) : Emits b.save b.enc := (Emits.vec3 b.min).comp (Emits.vec3 b.max)

/-- What a write leaves at its position. -/
theorem Ws.write_drop (w : Ws) (bs post : Bytes) (hw : w.pos ≤ w.data.length) :
    ((w.write bs).data ++ post).drop w.pos = bs ++ (w.data.drop (w.pos + bs.length) ++ post) := by
  have hlen : (w.data.take w.pos).length = w.pos := by simp; omega
  rw [Ws.write, splice_le _ _ _ hw]
  simp only [List.append_assoc]
  conv => lhs; arg 1; rw [← hlen]
  rw [List.drop_left]

end Verif
