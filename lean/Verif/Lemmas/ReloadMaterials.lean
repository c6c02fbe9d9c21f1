import Verif.Spec.Materials
import Verif.Lemmas.ObjLight
import Verif.Lemmas.Bsp

/-!
# Materials from a BINARY archive can be kept in a BINARY archive
-/

namespace Verif.Obj

open Verif.Ar

/-- What a program gives if every call gives something that fulfils `V`. -/
def Ld.Post {α} (V : Val → Prop) (Q : α → Prop) : Ld Unit α → Prop
  | .ret a => Q a
  | .val _ f => ∀ v, V v → (f v).Post V Q
  | _ => True

namespace Ld.Post

variable {V : Val → Prop}

theorem mono {α} {Q Q' : α → Prop} {p : Ld Unit α} (h : ∀ a, Q a → Q' a) (hp : p.Post V Q) : p.Post V Q' := by
  induction p with
  | ret a => exact h a hp
  | val k f ih => exact fun v hv => ih v (hp v hv)
  | fail | ptr | ptrAs | skip => trivial

theorem bind {α β} {Q : α → Prop} {Q' : β → Prop} {p : Ld Unit α} {g : α → Ld Unit β} (hp : p.Post V Q) (hg : ∀ a, Q a → (g a).Post V Q') :
    (p >>= g).Post V Q' := by
  show (p.bind g).Post V Q'
  induction p with
  | ret a => exact hg a hp
  | val k f ih => exact fun v hv => ih v (hp v hv)
  | fail | ptr | ptrAs | skip => trivial

theorem any {α} (p : Ld Unit α) : p.Post V fun _ => True := by
  induction p with
  | ret a => trivial
  | val k f ih => exact fun v _ => ih v
  | fail | ptr | ptrAs | skip => trivial

theorem exec {σ α} {r : Reader σ} (hr : ∀ k s v s', r.val k s = .ok (v, s') → V v) {Q : α → Prop} {p : Ld Unit α} (hp : p.Post V Q) (s : σ)
    {a : α} {s' : σ} (e : p.exec r s = .ok (a, s')) : Q a := by
  induction p generalizing s with
  | ret b => cases e; exact hp
  | fail | ptr | ptrAs | skip => cases e
  | val k f ih =>
    unfold Ld.exec at e
    cases hv : r.val k s with
    | error x => rw [hv] at e; cases e
    | ok y =>
      obtain ⟨v, s1⟩ := y
      rw [hv] at e
      exact ih v (hp v (hr k s v s1 hv)) s1 e

end Ld.Post

/-- What a BINARY archive gives: single lines, and bytes for enumerations. -/
def Single : Val → Prop
  | .string t => NoEol t
  | .enum e => e.toNat < 256
  | _ => True

theorem lineOf_single (bs : Bytes) : NoEol (lineOf bs) := by
  rw [noEol_iff]
  intro c hc
  have := List.all_takeWhile (p := fun c => !Rd.isEol c) (l := bs)
  simpa using (List.all_eq_true.mp this) c hc

theorem line_single (skip : Bool) {s s' : Rs} {t : Bytes} (e : Rd.line skip s = .ok (t, s')) : NoEol t := by
  obtain ⟨data, pos⟩ := s
  unfold Rd.line at e
  generalize (if skip then Rd.lineSpaces else []) = chars at e
  unfold Rd.lineThenIgnore at e
  dsimp only at e
  rw [Rd.bind_ok (lineLoop_eq data _ pos [] (by omega))] at e
  simp only [List.nil_append] at e
  obtain ⟨b, s1, e1, e⟩ := Rd.bind_eq_ok e
  split at e
  · cases e; exact lineOf_single _
  · obtain ⟨_, s2, e2, e⟩ := Rd.bind_eq_ok e
    obtain ⟨_, s3, e3, e⟩ := Rd.bind_eq_ok e
    split at e
    · cases e; exact lineOf_single _
    · obtain ⟨_, s4, e4, e⟩ := Rd.bind_eq_ok e
      cases e; exact lineOf_single _

theorem Bin.single (k : Kind) (s : Bin.Rr) (v : Val) (s' : Bin.Rr) (e : Bin.reader.val k s = .ok (v, s')) : Single v := by
  change Bin.lift (Bin.readVal k) s = _ at e
  unfold Bin.lift at e
  cases hv : Bin.readVal k s.rs with
  | error x => rw [hv] at e; cases e
  | ok y =>
    obtain ⟨v', rs⟩ := y
    rw [hv] at e
    cases e
    cases k <;> simp only [Bin.readVal] at hv
    all_goals
      obtain ⟨x, s1, e1, e2⟩ := Rd.bind_eq_ok hv
      cases e2
    all_goals first
      | exact line_single _ e1
      | exact True.intro
      | (show (x.setWidth 32).toNat < 256
         rw [BitVec.toNat_setWidth]
         have := x.isLt
         omega)

theorem extract_finite (t : Bytes) : Finite (FText.extract t).1 := by
  have hs : ∀ (neg : Bool) (p : Nat), p < FText.infMag → Finite (FText.withSign neg p) := by
    intro neg p hp
    unfold Finite FText.mag FText.withSign
    unfold FText.infMag at *
    rw [BitVec.toNat_ofNat]
    cases neg <;> simp only [if_true, Bool.false_eq_true, if_false] <;> omega
  unfold FText.extract
  dsimp only
  split
  · show FText.mag 0 < FText.infMag; decide
  · unfold FText.convert
    dsimp only
    split
    · exact hs _ _ (by decide)
    · exact hs _ _ (by omega)

theorem IStr.float_finite (s : IStr) (v : F32) (h : s.float.1 = some v) : Finite v := by
  unfold IStr.float at h
  split at h
  · split at h
    · cases h
    · rename_i c r _
      have := extract_finite (c :: r)
      split at h <;> (rename_i he; rw [he] at this; cases h; exact this)
  · cases h

theorem readVec2_finite (t : Bytes) (old : Vec2) (hx : Finite old.x) (hy : Finite old.y) : Finite (readVec2 t old).x ∧ Finite (readVec2 t old).y := by
  unfold readVec2
  dsimp only
  constructor
  · cases h : (IStr.float ⟨t, true⟩).1 with
    | none => exact hx
    | some v => exact IStr.float_finite _ v h
  · cases h : (IStr.float ⟨t, true⟩).2.float.1 with
    | none => exact hy
    | some v => exact IStr.float_finite _ v h

/-- A material that is loaded over one with numbers for its texts is plain. -/
theorem Material.load_post (c : Ctx) (o : Material) (ho : o.Finite) : (Material.load (P := Unit) c o).Post Single Material.Plain := by
  obtain ⟨o1, o2, o3, o4⟩ := ho
  have hstr : (Ld.str (P := Unit)).Post Single NoEol := fun v hv => by cases v <;> first | exact hv | trivial
  have henum : (Ld.enum (P := Unit)).Post Single fun e => e.toNat < 256 := fun v hv => by cases v <;> first | exact hv | trivial
  unfold Material.load
  refine .bind hstr fun name hn => .bind (.any _) fun _ _ => .bind (.any _) fun _ _ => .bind (.any _) fun _ _ => .bind hstr fun tex ht =>
    .bind (.any _) fun scale _ => .bind (.any _) fun _ _ => .bind henum fun mode hm => .bind (.any _) fun dir _ => .bind (.any _) fun _ _ =>
    .bind (.any _) fun _ _ => .bind (.any _) fun _ _ => .bind hstr fun det hd => ?_
  have h1 := readVec2_finite scale o.textureScale o1 o2
  have h2 := readVec2_finite dir o.animMapDir o3 o4
  refine .bind (Q := Material.Plain) ?_ fun m hm => .bind (.any _) fun _ _ => ?_
  · unfold Ld.opt
    split
    · refine .bind (.any _) fun _ _ => .bind (.any _) fun _ _ => .bind (.any _) fun _ _ => .bind (.any _) fun _ _ => .bind (.any _) fun _ _ =>
        .bind (.any _) fun _ _ => .bind (.any _) fun _ _ => .bind (.any _) fun _ _ => .bind (.any _) fun _ _ => .bind (.any _) fun _ _ => ?_
      exact ⟨⟨h1.1, h1.2, h2.1, h2.2⟩, hn, ht, hd, hm⟩
    · exact ⟨⟨h1.1, h1.2, h2.1, h2.2⟩, hn, ht, hd, hm⟩
  · exact ⟨hm.1, hm.2, hm.3, hm.4, hm.5⟩

theorem Material.loadMany_plain (os : List Material) (ho : ∀ o ∈ os, o.Finite) (s s' : Bin.Rr) (xs : List Material)
    (e : Material.loadMany Bin.reader os s = .ok (xs, s')) : xs.length = os.length ∧ ∀ x ∈ xs, x.Plain := by
  induction os generalizing s xs with
  | nil => cases e; exact ⟨rfl, fun _ h => by cases h⟩
  | cons o os ih =>
    unfold Material.loadMany at e
    split at e
    · cases e
    · rename_i m s1 e1
      split at e
      · cases e
      · rename_i ms s2 e2
        cases e
        obtain ⟨h1, h2⟩ := ih (fun o h => ho o (by simp [h])) s1 ms e2
        refine ⟨by simp [h1], fun x hx => ?_⟩
        rcases List.mem_cons.mp hx with rfl | hx
        · unfold Material.loadFrom at e1
          split at e1
          · cases e1
          · split at e1
            · cases e1
            · cases e1
            · split at e1
              · cases e1
              · split at e1
                · cases e1
                · rename_i e3
                  split at e1
                  · cases e1
                  · cases e1
                    exact Ld.Post.exec Bin.single (Material.load_post _ _ (ho o (by simp))) _ e3
        · exact h2 x hx

end Verif.Obj
