import Verif.Spec.ObjLoad
import Verif.Model.ObjMisc
import Verif.Lemmas.Stream

/-! # Lemmas about programs that load objects -/

namespace Verif.Obj

open Verif.Ar

variable {P α β : Type} {env : Env P} {φ : Nat → P}

theorem Ld.run_bind (p : Ld P α) (g : α → Ld P β) (l : List (Item P)) :
    (p.bind g).run env l = (match p.run env l with | .ok (a, l') => (g a).run env l' | .error e => .error e) := by
  induction p generalizing l with
  | ret a => rfl
  | fail e => rfl
  | val k f ih =>
    match l with
    | [] => rfl
    | .val v :: l =>
      simp only [Ld.bind, Ld.run]
      split
      · exact ih v l
      · rfl
    | .ptr p :: l => rfl
  | ptr f ih =>
    match l with
    | [] => rfl
    | .val v :: l => rfl
    | .ptr p :: l => exact ih p l
  | ptrAs t f ih =>
    match l with
    | [] => rfl
    | .val v :: l => rfl
    | .ptr none :: l => exact ih none l
    | .ptr (some a) :: l =>
      simp only [Ld.bind, Ld.run]
      split
      · exact ih (some a) l
      · rfl
  | skip p ih =>
    match l with
    | [] => rfl
    | .val v :: l => rfl
    | .ptr p :: l => rfl

theorem Loads.bind {p : Ld P α} {g : α → Ld P β} {fs fs' : List Field} {a : α} {b : β} (h : Loads env φ p fs a)
    (h' : Loads env φ (g a) fs' b) : Loads env φ (p >>= g) (fs ++ fs') b := by
  intro rest
  have e : ((fs ++ fs').map (Field.item φ) ++ rest) = fs.map (Field.item φ) ++ (fs'.map (Field.item φ) ++ rest) := by simp
  rw [e]
  show (Ld.bind p g).run env _ = _
  rw [Ld.run_bind, h]
  exact h' rest

theorem Loads.ret (a : α) : Loads env φ (.ret a) [] a := fun _ => rfl
theorem Loads.pure (a : α) : Loads env φ (Pure.pure a) [] a := fun _ => rfl

/-- The last step. -/
theorem Loads.map {p : Ld P α} {g : α → β} {fs : List Field} {a : α} (h : Loads env φ p fs a) :
    Loads env φ (p >>= fun x => Pure.pure (g x)) fs (g a) := by
  have := Loads.bind (g := fun x => Pure.pure (g x)) h (Loads.pure (g a))
  rwa [List.append_nil] at this

theorem Loads.cons {p : Ld P α} {g : α → Ld P β} {f : Field} {fs' : List Field} {a : α} {b : β} (h : Loads env φ p [f] a)
    (h' : Loads env φ (g a) fs' b) : Loads env φ (p >>= g) (f :: fs') b := Loads.bind h h'

theorem Loads.str (n v : Bytes) : Loads env φ Ld.str [fStr n v] v := fun _ => rfl
theorem Loads.int (n : Bytes) (v : BitVec 32) : Loads env φ Ld.int [fInt n v] v := fun _ => rfl
theorem Loads.float (n : Bytes) (v : F32) : Loads env φ Ld.float [fFloat n v] v := fun _ => rfl
theorem Loads.byte (n : Bytes) (v : BitVec 8) : Loads env φ Ld.byte [fByte n v] v := fun _ => rfl
theorem Loads.word (n : Bytes) (v : BitVec 16) : Loads env φ Ld.word [fWord n v] v := fun _ => rfl
theorem Loads.enum (n : Bytes) (v : BitVec 32) : Loads env φ Ld.enum [fEnum n v] v := fun _ => rfl
theorem Loads.bool (n : Bytes) (v : Bool) : Loads env φ Ld.bool [fBool n v] v := fun _ => rfl
theorem Loads.vec3 (n : Bytes) (v : Vec3) : Loads env φ Ld.vec3 [fVec3 n v] v := fun _ => rfl
theorem Loads.vec2 (n : Bytes) (v : Vec2) : Loads env φ Ld.vec2 [fVec2 n v] v := fun _ => rfl
theorem Loads.obj (n : Bytes) (p : Option Nat) : Loads env φ Ld.obj [fObj n p] (p.map φ) := fun _ => rfl

theorem Loads.objVob (n : Bytes) (p : Option Nat) : Loads env φ (Ld.objVob env) [fObj n p] ((p.map φ).filter env.vob) :=
  fun _ => rfl

theorem Loads.objAs {t : ObjectType} {p : Option Nat} (n : Bytes) (h : Typed env φ t p) :
    Loads env φ (Ld.objAs t) [fObj n p] (p.map φ) := by
  intro rest
  cases p with
  | none => rfl
  | some a =>
    show (if env.is t (φ a) = true then _ else _) = _
    rw [if_pos (h a rfl)]
    rfl

theorem Loads.raw {p : Rd α} {n : Nat} {a : α} {v w : Bytes} (name : Bytes) (hn : v.length = n) (h : Reads p w a)
    (hw : ∃ t, v = w ++ t) : Loads env φ (Ld.raw n p) [fRaw name v] a := by
  intro rest
  obtain ⟨t, rfl⟩ := hw
  have : (p ⟨w ++ t, 0⟩) = .ok (a, ⟨w ++ t, w.length⟩) := by
    have := h [] t
    simpa using this
  have hk : (Val.raw (w ++ t)).kind = Kind.raw n := congrArg Kind.raw hn
  simp only [Ld.raw, fRaw, List.map_cons, List.map_nil, Field.item, List.cons_append, List.nil_append, Ld.run]
  rw [if_pos hk, this]
  rfl

theorem Loads.raw' {p : Rd α} {n : Nat} {a : α} {v : Bytes} (name : Bytes) (hn : v.length = n) (h : Reads p v a) :
    Loads env φ (Ld.raw n p) [fRaw name v] a := Loads.raw name hn h ⟨[], by simp⟩

theorem Loads.opt {b : Bool} {old a : α} {p : Ld P α} {fs : List Field} (h : b = true → Loads env φ p fs a) :
    Loads env φ (Ld.opt b old p) (fIf b fs) (if b then a else old) := by
  cases b with
  | false => exact fun _ => rfl
  | true => exact h rfl

theorem Loads.opt1 {b : Bool} {old a : α} {p : Ld P α} {fs : List Field} {g : α → Ld P β} {y : β} {fs' : List Field}
    (h : b = true → Loads env φ p fs a) (h' : Loads env φ (g (if b then a else old)) fs' y) :
    Loads env φ (Ld.opt b old p >>= g) (fIf b fs ++ fs') y := Loads.bind (Loads.opt h) h'

/-! ### Lists -/

theorem Loads.times {γ} {p : Ld P α} {l : List γ} {g : γ → List Field} {h : γ → α} (hp : ∀ x ∈ l, Loads env φ p (g x) (h x)) :
    Loads env φ (Ld.times l.length p) (l.flatMap g) (l.map h) := by
  induction l with
  | nil => exact fun _ => rfl
  | cons x l ih =>
    rw [List.flatMap_cons]
    refine Loads.bind (p := p) (hp x (by simp)) ?_
    exact Loads.map (ih fun y hy => hp y (by simp [hy]))

theorem Loads.timesIdx {γ} {p : Ld P α} {l : List γ} {g : γ × Nat → List Field} {h : γ → α} 
    (hp : ∀ x ∈ l, ∀ i, Loads env φ p (g (x, i)) (h x)) :
    Loads env φ (Ld.times l.length p) (l.zipIdx.flatMap g) (l.map h) := by
  have := Loads.times (env := env) (φ := φ) (p := p) (l := l.zipIdx) (g := g) (h := fun q => h q.1) (by
    intro q hq
    exact hp q.1 (List.fst_mem_of_mem_zipIdx hq) q.2)
  have e : l.zipIdx.map (fun q => h q.1) = l.map h := by
    have := List.map_map (g := h) (f := Prod.fst) (l := l.zipIdx)
    rw [List.zipIdx_map_fst] at this
    exact this.symm
  rw [e, List.length_zipIdx] at this
  exact this

theorem flatMap_one {γ δ} (l : List γ) (g : γ → δ) : l.flatMap (fun x => [g x]) = l.map g := by
  induction l with
  | nil => rfl
  | cons x l ih => rw [List.flatMap_cons, ih]; rfl

theorem Loads.each {γ} {p : Ld P α} {l : List γ} {g : γ → Field} {h : γ → α} (hp : ∀ x ∈ l, Loads env φ p [g x] (h x)) :
    Loads env φ (Ld.times l.length p) (l.map g) (l.map h) := by
  have := Loads.times (env := env) (φ := φ) (p := p) (l := l) (g := fun x => [g x]) (h := h) hp
  rwa [flatMap_one] at this

theorem Loads.numbered {γ} {p : Ld P α} {l : List γ} {f : Bytes → γ → Field} {pre : Bytes} {h : γ → α}
    (hp : ∀ x ∈ l, ∀ n, Loads env φ p [f n x] (h x)) :
    Loads env φ (Ld.times l.length p) (numbered f pre l) (l.map h) := by
  have := Loads.timesIdx (env := env) (φ := φ) (p := p) (l := l) (g := fun q => [f (pre ++ dec q.2) q.1]) (h := h)
    (fun x hx i => hp x hx _)
  rw [flatMap_one] at this
  exact this

theorem size32_msb {l : List α} (h : Fits31 l) : (size32 l).msb = false := by
  unfold Fits31 at h
  rw [BitVec.msb_eq_false_iff_two_mul_lt]
  simp only [size32, BitVec.toNat_ofNat]
  omega

theorem size32_toNat {l : List α} (h : Fits31 l) : (size32 l).toNat = l.length := by
  unfold Fits31 at h
  simp only [size32, BitVec.toNat_ofNat]
  omega

theorem rounds_size32 {l : List α} (h : Fits31 l) : Ld.rounds (size32 l) = l.length := by
  rw [Ld.rounds, size32_msb h, size32_toNat h]
  rfl

theorem Ld.sized_size32 {l : List β} (h : Fits31 l) (p : Ld P α) : Ld.sized (size32 l) p = Ld.times l.length p := by
  rw [Ld.sized, size32_msb h, size32_toNat h]
  rfl

end Verif.Obj
