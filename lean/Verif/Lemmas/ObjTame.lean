import Verif.Lemmas.ObjMild

/-!
# Reading objects of any archive comes to an end
-/

namespace Verif.Obj

open Verif.Ar

/-- What is needed of a reader on a file: no call goes back behind the start of the object it belongs to, the start of an object
takes something from the file, and what goes wrong is allowed (`A`). `I k` are the states that belong to a context `k`, `Child` says
that an object was started in a context at a position. -/
structure Tame {σ K : Type} (r : Reader σ) (data : Bytes) (A : Fail → Prop) (pos : σ → Nat) (I : K → σ → Prop)
    (Child : K → Nat → K → Prop) : Prop where
  len : ∀ {k s}, I k s → pos s ≤ data.length
  throw : ∀ e, A (.throw e)
  val : ∀ {k s} kd, Small kd → I k s → (∃ v s', r.val kd s = .ok (v, s') ∧ Fits kd v ∧ I k s' ∧ pos s ≤ pos s') ∨ ∃ e, r.val kd s = .error e ∧ A e
  start : ∀ {k s}, I k s →
    (∃ s', r.objBegin s = .ok (none, s') ∧ I k s' ∧ pos s ≤ pos s') ∨
    (∃ h s' k', r.objBegin s = .ok (some h, s') ∧ I k' s' ∧ pos s < pos s' ∧ Child k (pos s) k' ∧
      h.cls <:+: data ∧ ((∃ s2, r.skipObj true s' = .ok ((), s2) ∧ I k s2 ∧ pos s ≤ pos s2) ∨ ∃ e, r.skipObj true s' = .error e ∧ A e)) ∨
    ∃ e, r.objBegin s = .error e ∧ A e
  close : ∀ {k k' b s}, Child k b k' → I k' s → b ≤ pos s →
    (∃ s', endOrSkip r s = .ok ((), s') ∧ I k s' ∧ b ≤ pos s') ∨ ∃ e, endOrSkip r s = .error e ∧ A e
  next : ∀ {k s}, I k s →
    (∃ s', r.skipObj false s = .ok ((), s') ∧ I k s' ∧ pos s ≤ pos s') ∨ ∃ e, r.skipObj false s = .error e ∧ A e

theorem endOrSkip_end {σ} {r : Reader σ} {s s' : σ} (h : r.objEnd s = .ok (true, s')) : endOrSkip r s = .ok ((), s') := by
  unfold endOrSkip
  rw [h]
  rfl

theorem endOrSkip_skip {σ} {r : Reader σ} {s s' : σ} (h : r.objEnd s = .ok (false, s')) : endOrSkip r s = r.skipObj true s' := by
  unfold endOrSkip
  rw [h]
  rfl

variable {σ K : Type} {r : Reader σ} {data : Bytes} {A : Fail → Prop} {pos : σ → Nat} {I : K → σ → Prop} {Child : K → Nat → K → Prop}

theorem Tame.runOn {γ α} (T : Tame r data A pos I Child) (env : Env Nat) {ptr : σ → γ → Except Fail (Option Nat × σ × γ)} {k : K} {b : Nat}
    (hptr : ∀ s g, I k s → b ≤ pos s →
      (∃ p s' g', ptr s g = .ok (p, s', g') ∧ I k s' ∧ b ≤ pos s') ∨ ∃ e, ptr s g = .error e ∧ A e)
    {p : Ld Nat α} (hp : p.Mild) (s : σ) (g : γ) (hs : I k s) (hb : b ≤ pos s) :
    (∃ a s' g', p.runOn r env ptr s g = .ok (a, s', g') ∧ I k s' ∧ b ≤ pos s') ∨ ∃ e, p.runOn r env ptr s g = .error e ∧ A e := by
  induction hp generalizing s g with
  | ret a => exact .inl ⟨a, s, g, rfl, hs, hb⟩
  | throw e => exact .inr ⟨_, rfl, T.throw e⟩
  | @val kd f hk _ ih =>
    unfold Ld.runOn
    rcases T.val kd hk hs with ⟨v, s', e, hv, hs', hle⟩ | ⟨e, he, ha⟩
    · rw [e]
      exact ih v hv s' g hs' (by omega)
    · rw [he]
      exact .inr ⟨e, rfl, ha⟩
  | @ptr f _ ih =>
    unfold Ld.runOn
    rcases hptr s g hs hb with ⟨p, s', g', e, hs', hle⟩ | ⟨e, he, ha⟩
    · rw [e]
      exact ih p s' g' hs' hle
    · rw [he]
      exact .inr ⟨e, rfl, ha⟩
  | @ptrAs t f _ ih =>
    unfold Ld.runOn
    rcases hptr s g hs hb with ⟨p, s', g', e, hs', hle⟩ | ⟨e, he, ha⟩
    · rw [e]
      cases p with
      | none => exact ih none s' g' hs' hle
      | some a =>
        dsimp only
        split
        · exact ih (some a) s' g' hs' hle
        · exact .inr ⟨_, rfl, T.throw _⟩
    · rw [he]
      exact .inr ⟨e, rfl, ha⟩
  | skip _ ih =>
    unfold Ld.runOn
    rcases T.next hs with ⟨s', e, hs', hle⟩ | ⟨e, he, ha⟩
    · rw [e]
      exact ih s' g hs' (by omega)
    · rw [he]
      exact .inr ⟨e, rfl, ha⟩

theorem Tame.readAny (T : Tame r data A pos I Child) (c : Ctx) (env : Env Nat)
    (hn : ∀ cls k, classFor cls = some k → cls <:+: data → touchy k.type = false)
    (fuel : Nat) (k : K) (s : σ) (g : Made) (hs : I k s) (hf : data.length - pos s < fuel) :
    (∃ p s' g', Obj.readAny r c env fuel s g = .ok (p, s', g') ∧ I k s' ∧ pos s ≤ pos s') ∨
      ∃ e, Obj.readAny r c env fuel s g = .error e ∧ A e := by
  induction fuel generalizing k s g with
  | zero => omega
  | succ fuel ih =>
    unfold Obj.readAny
    rcases T.start hs with ⟨s1, e, hs1, hle⟩ | ⟨h, s1, k', e, hs1, hlt, hc, hname, hskip⟩ | ⟨e, he, ha⟩
    · rw [e]
      exact .inl ⟨none, s1, g, rfl, hs1, hle⟩
    · rw [e]
      dsimp only
      split
      · rcases T.close hc hs1 (by omega) with ⟨s2, e2, hs2, hle2⟩ | ⟨e2, he2, ha⟩
        · rw [e2]
          exact .inl ⟨_, s2, g, rfl, hs2, hle2⟩
        · rw [he2]
          exact .inr ⟨e2, rfl, ha⟩
      split
      · rcases hskip with ⟨s2, e2, hs2, hle2⟩ | ⟨e2, he2, ha⟩
        · rw [e2]
          exact .inl ⟨_, s2, g, rfl, hs2, hle2⟩
        · rw [he2]
          exact .inr ⟨e2, rfl, ha⟩
      clear hskip
      cases hcl : classFor h.cls with
      | none =>
        dsimp only
        rcases T.close hc hs1 (by omega) with ⟨s2, e2, hs2, hle2⟩ | ⟨e2, he2, ha⟩
        · rw [e2]
          exact .inl ⟨_, s2, g, rfl, hs2, hle2⟩
        · rw [he2]
          exact .inr ⟨e2, rfl, ha⟩
      | some cl =>
        dsimp only
        have hlen := T.len hs1
        have hm := loadFor_mild (c := c) (env := env) cl.type (hn _ _ hcl hname)
        rcases T.runOn env (b := pos s + 1) (ptr := Obj.readAny r c env fuel) (fun s' g' hs' hb' => by
            rcases ih k' s' g' hs' (by omega) with ⟨p, s2, g2, e2, hs2, hle2⟩ | h
            · exact .inl ⟨p, s2, g2, e2, hs2, by omega⟩
            · exact .inr h) hm s1 ⟨g.heap ++ [(cl.type, none)], insertOrAssign g.cache h.index g.heap.length⟩ hs1 (by omega)
          with ⟨x, s2, g2, e2, hs2, hle2⟩ | ⟨e2, he2, ha⟩
        · rw [e2]
          dsimp only
          rcases T.close hc hs2 (by omega) with ⟨s3, e3, hs3, hle3⟩ | ⟨e3, he3, ha⟩
          · rw [e3]
            exact .inl ⟨_, s3, _, rfl, hs3, hle3⟩
          · rw [he3]
            exact .inr ⟨e3, rfl, ha⟩
        · rw [he2]
          exact .inr ⟨e2, rfl, ha⟩
    · rw [he]
      exact .inr ⟨e, rfl, ha⟩

end Verif.Obj
