import Verif.Spec.Archive
import Verif.Lemmas.Stream

/-! # Simulation of documents by the readers of the formats -/

namespace Verif

/-- `Reads` at a given position. -/
theorem Reads.atPos {α} {p : Rd α} {bs : Bytes} {a : α} (h : Reads p bs a) (data : Bytes) (pos : Nat) (rest : Bytes)
    (hp : pos ≤ data.length) (hd : data.drop pos = bs ++ rest) :
    p ⟨data, pos⟩ = .ok (a, ⟨data, pos + bs.length⟩) ∧ pos + bs.length ≤ data.length ∧
      data.drop (pos + bs.length) = rest := by
  have hpre : (data.take pos).length = pos := by simp; omega
  have hdata : data = data.take pos ++ bs ++ rest := by
    rw [List.append_assoc, ← hd, List.take_append_drop]
  have := h (data.take pos) rest
  rw [← hdata, hpre] at this
  refine ⟨this, ?_, ?_⟩
  · have := congrArg List.length hd
    simp at this; omega
  · rw [← List.drop_drop, hd]; simp

end Verif

namespace Verif.Ar

/-- The state `s` of a reader represents the levels `L` of unread documents, innermost first: the rest of the
current object, the rest of the object around it, and so on. -/
structure Sim {σ} (r : Reader σ) where
  R : List Doc → σ → Prop
  val : ∀ n v rest L s, R (.val n v rest :: L) s → ∃ s', r.val v.kind s = .ok (v, s') ∧ R (rest :: L) s'
  obj : ∀ n c ver ix ch rest L s, R (.obj n c ver ix ch rest :: L) s →
    ∃ s', r.objBegin s = .ok (some ⟨n, c, ver, ix⟩, s') ∧ R (ch :: rest :: L) s'
  ref : ∀ n ix rest L s, R (.ref n ix rest :: L) s →
    ∃ s', r.objBegin s = .ok (some ⟨n, refClass, 0, ix⟩, s') ∧ R (.nil :: rest :: L) s'
  fin : ∀ rest L s, R (.nil :: rest :: L) s → ∃ s', r.objEnd s = .ok (true, s') ∧ R (rest :: L) s'

theorem Sim.readShape {σ} {r : Reader σ} (S : Sim r) (d : Doc) (L : List Doc) (s : σ) (h : S.R (d :: L) s) :
    ∃ s', readShape r d.shape s = .ok (d.tree, s') ∧ S.R (.nil :: L) s' := by
  induction d generalizing L s with
  | nil => exact ⟨s, rfl, h⟩
  | val n v rest ih =>
    obtain ⟨s1, e1, h1⟩ := S.val _ _ _ _ _ h
    obtain ⟨s2, e2, h2⟩ := ih _ _ h1
    exact ⟨s2, by simp only [Doc.shape, Ar.readShape, e1, e2, Doc.tree], h2⟩
  | obj n c ver ix ch rest ihc ihr =>
    obtain ⟨s1, e1, h1⟩ := S.obj _ _ _ _ _ _ _ _ h
    obtain ⟨s2, e2, h2⟩ := ihc _ _ h1
    obtain ⟨s3, e3, h3⟩ := S.fin _ _ _ h2
    obtain ⟨s4, e4, h4⟩ := ihr _ _ h3
    exact ⟨s4, by simp only [Doc.shape, Ar.readShape, e1, e2, e3, e4, Doc.tree], h4⟩
  | ref n ix rest ih =>
    obtain ⟨s1, e1, h1⟩ := S.ref _ _ _ _ _ h
    obtain ⟨s3, e3, h3⟩ := S.fin _ _ _ h1
    obtain ⟨s4, e4, h4⟩ := ih _ _ h3
    exact ⟨s4, by simp only [Doc.shape, Ar.readShape, e1, e3, e4, Doc.tree], h4⟩

/-- Reading a part of the entries of an object. -/
theorem Sim.readShape_app {σ} {r : Reader σ} (S : Sim r) (d e : Doc) (L : List Doc) (s : σ) (h : S.R (d.app e :: L) s) :
    ∃ s', Ar.readShape r d.shape s = .ok (d.tree, s') ∧ S.R (e :: L) s' := by
  induction d generalizing L s with
  | nil => exact ⟨s, rfl, h⟩
  | val n v rest ih =>
    obtain ⟨s1, e1, h1⟩ := S.val _ _ _ _ _ h
    obtain ⟨s2, e2, h2⟩ := ih _ _ h1
    exact ⟨s2, by simp only [Doc.shape, Ar.readShape, e1, e2, Doc.tree], h2⟩
  | obj n c ver ix ch rest ihc ihr =>
    obtain ⟨s1, e1, h1⟩ := S.obj _ _ _ _ _ _ _ _ h
    obtain ⟨s2, e2, h2⟩ := S.readShape _ _ _ h1
    obtain ⟨s3, e3, h3⟩ := S.fin _ _ _ h2
    obtain ⟨s4, e4, h4⟩ := ihr _ _ h3
    exact ⟨s4, by simp only [Doc.shape, Ar.readShape, e1, e2, e3, e4, Doc.tree], h4⟩
  | ref n ix rest ih =>
    obtain ⟨s1, e1, h1⟩ := S.ref _ _ _ _ _ h
    obtain ⟨s3, e3, h3⟩ := S.fin _ _ _ h1
    obtain ⟨s4, e4, h4⟩ := ih _ _ h3
    exact ⟨s4, by simp only [Doc.shape, Ar.readShape, e1, e3, e4, Doc.tree], h4⟩

theorem _root_.Verif.Reads.colorBgra (c : Color) :
    Reads Rd.colorBgra (encW 1 c.b ++ encW 1 c.g ++ encW 1 c.r ++ encW 1 c.a) c := by
  refine Reads.congr (Reads.bind (Reads.u8 c.b) (Reads.bind (Reads.u8 c.g) (Reads.bind (Reads.u8 c.r)
    (Reads.bind (Reads.u8 c.a) (Reads.pure _))))) ?_ rfl
  simp

theorem _root_.Verif.Emits.colorBgra (c : Color) :
    Emits (Ws.colorBgra c) (encW 1 c.b ++ encW 1 c.g ++ encW 1 c.r ++ encW 1 c.a) := by
  have h := (((Emits.u8 c.b).comp (Emits.u8 c.g)).comp (Emits.u8 c.r)).comp (Emits.u8 c.a)
  exact h

end Verif.Ar
