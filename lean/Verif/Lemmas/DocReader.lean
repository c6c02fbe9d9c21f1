import Verif.Spec.DocReader
import Verif.Lemmas.ArchiveGraphFmt

/-! # Readers that read documents -/

namespace Verif.Ar

/-- The reader does what the reader of documents does. -/
structure Refines {σ} (r : Reader σ) where
  R : List Doc → σ → Prop
  objBegin : ∀ L s x L', docReader.objBegin L = .ok (x, L') → R L s → ∃ s', r.objBegin s = .ok (x, s') ∧ R L' s'
  objEnd : ∀ L s x L', docReader.objEnd L = .ok (x, L') → R L s → ∃ s', r.objEnd s = .ok (x, s') ∧ R L' s'
  val : ∀ k L s x L', docReader.val k L = .ok (x, L') → R L s → ∃ s', r.val k s = .ok (x, s') ∧ R L' s'
  skipObj : ∀ b L s x L', docReader.skipObj b L = .ok (x, L') → R L s → ∃ s', r.skipObj b s = .ok (x, s') ∧ R L' s'

theorem except_bind_ok {α β} {x : Except Fail α} {f : α → Except Fail β} {b : β} (h : (x >>= f) = .ok b) :
    ∃ a, x = .ok a ∧ f a = .ok b := by
  cases x with
  | error e => cases h
  | ok a => exact ⟨a, rfl, h⟩

section
variable {σ : Type} {r : Reader σ} (M : Refines r)

theorem Refines.endOrSkip {L L' : List Doc} {s : σ} {x : Unit} (h : endOrSkip docReader L = .ok (x, L')) (hR : M.R L s) :
    ∃ s', endOrSkip r s = .ok (x, s') ∧ M.R L' s' := by
  unfold Ar.endOrSkip at h ⊢
  obtain ⟨⟨b, L1⟩, h1, h2⟩ := except_bind_ok h
  obtain ⟨s1, e1, r1⟩ := M.objEnd _ _ _ _ h1 hR
  rw [e1]
  cases b with
  | true => cases h2; exact ⟨s1, rfl, r1⟩
  | false => exact M.skipObj true _ _ _ _ h2 r1

theorem Refines.readFields {ptr : List Doc → GRd → Except Fail (Option Nat × List Doc × GRd)}
    {ptr' : σ → GRd → Except Fail (Option Nat × σ × GRd)}
    (hp : ∀ L s g p L' g', ptr L g = .ok (p, L', g') → M.R L s → ∃ s', ptr' s g = .ok (p, s', g') ∧ M.R L' s')
    (S : List Seen → Option Want) (fuel : Nat) : ∀ acc L s g o L' g', readFields docReader ptr S fuel acc L g = .ok (o, L', g') → M.R L s →
      ∃ s', Ar.readFields r ptr' S fuel acc s g = .ok (o, s', g') ∧ M.R L' s' := by
  induction fuel with
  | zero => intro acc L s g o L' g' h; cases h
  | succ fuel ih =>
    intro acc L s g o L' g' h hR
    unfold Ar.readFields at h ⊢
    split at h
    · cases h; exact ⟨s, rfl, hR⟩
    · obtain ⟨⟨v, L1⟩, h1, h2⟩ := except_bind_ok h
      obtain ⟨s1, e1, r1⟩ := M.val _ _ _ _ _ h1 hR
      obtain ⟨s2, e2, r2⟩ := ih _ _ _ _ _ _ _ h2 r1
      exact ⟨s2, by rw [e1]; exact e2, r2⟩
    · obtain ⟨⟨p, L1, g1⟩, h1, h2⟩ := except_bind_ok h
      obtain ⟨s1, e1, r1⟩ := hp _ _ _ _ _ _ h1 hR
      obtain ⟨s2, e2, r2⟩ := ih _ _ _ _ _ _ _ h2 r1
      exact ⟨s2, by rw [e1]; exact e2, r2⟩

theorem Refines.readPtr (S : Schema) (fuel : Nat) : ∀ L s g p L' g', readPtr docReader S fuel L g = .ok (p, L', g') → M.R L s →
    ∃ s', Ar.readPtr r S fuel s g = .ok (p, s', g') ∧ M.R L' s' := by
  induction fuel with
  | zero => intro L s g p L' g' h; cases h
  | succ fuel ih =>
    intro L s g p L' g' h hR
    unfold Ar.readPtr at h ⊢
    obtain ⟨⟨o, L1⟩, h1, h2⟩ := except_bind_ok h
    obtain ⟨s1, e1, r1⟩ := M.objBegin _ _ _ _ h1 hR
    rw [e1]
    cases o with
    | none => cases h2; exact ⟨s1, rfl, r1⟩
    | some hd =>
      simp only [bind, Except.bind] at h2 ⊢
      by_cases c1 : hd.cls = refClass
      · rw [if_pos c1] at h2 ⊢
        obtain ⟨⟨⟨⟩, L2⟩, h3, h4⟩ := except_bind_ok h2
        obtain ⟨s2, e2, r2⟩ := M.endOrSkip h3 r1
        cases h4
        exact ⟨s2, by rw [e2]; rfl, r2⟩
      · rw [if_neg c1] at h2 ⊢
        by_cases c2 : hd.cls = nullClass
        · rw [if_pos c2] at h2 ⊢
          obtain ⟨⟨⟨⟩, L2⟩, h3, h4⟩ := except_bind_ok h2
          obtain ⟨s2, e2, r2⟩ := M.skipObj true _ _ _ _ h3 r1
          cases h4
          exact ⟨s2, by rw [e2]; rfl, r2⟩
        · rw [if_neg c2] at h2 ⊢
          cases hc : classFor hd.cls with
          | none =>
            rw [hc] at h2
            dsimp only at h2 ⊢
            obtain ⟨⟨⟨⟩, L2⟩, h3, h4⟩ := except_bind_ok h2
            obtain ⟨s2, e2, r2⟩ := M.endOrSkip h3 r1
            cases h4
            exact ⟨s2, by rw [e2]; rfl, r2⟩
          | some c =>
            rw [hc] at h2
            dsimp only at h2 ⊢
            obtain ⟨⟨fs, L2, g2⟩, h3, h4⟩ := except_bind_ok h2
            obtain ⟨s2, e2, r2⟩ := M.readFields ih _ _ _ _ _ _ _ _ _ h3 r1
            obtain ⟨⟨⟨⟩, L3⟩, h5, h6⟩ := except_bind_ok h4
            obtain ⟨s3, e3, r3⟩ := M.endOrSkip h5 r2
            cases h6
            refine ⟨s3, ?_, r3⟩
            rw [e2]
            dsimp only
            rw [e3]
            rfl

end

/-! ## What is around an object does not matter -/

theorem endOrSkip_doc (d rest : Doc) (L : List Doc) : endOrSkip docReader (d :: rest :: L) = .ok ((), rest :: L) := by
  cases d <;> rfl

/-- A call that reads something of the current object only. -/
def Local (ptr : List Doc → GRd → Except Fail (Option Nat × List Doc × GRd)) : Prop :=
  ∀ d L g p L1 g', ptr (d :: L) g = .ok (p, L1, g') → ∃ d', L1 = d' :: L ∧ ∀ L', ptr (d :: L') g = .ok (p, d' :: L', g')

theorem readFields_local {ptr : List Doc → GRd → Except Fail (Option Nat × List Doc × GRd)} (hp : Local ptr)
    (S : List Seen → Option Want) (fuel : Nat) : ∀ acc d L g o L1 g', readFields docReader ptr S fuel acc (d :: L) g = .ok (o, L1, g') →
      ∃ d', L1 = d' :: L ∧ ∀ L', readFields docReader ptr S fuel acc (d :: L') g = .ok (o, d' :: L', g') := by
  induction fuel with
  | zero => intro acc d L g o L1 g' h; cases h
  | succ fuel ih =>
    intro acc d L g o L1 g' h
    unfold readFields at h ⊢
    split at h
    · cases h; exact ⟨d, rfl, fun _ => rfl⟩
    · rename_i k _
      obtain ⟨⟨v, L2⟩, h1, h2⟩ := except_bind_ok h
      have : ∃ d2, L2 = d2 :: L ∧ ∀ L', docReader.val k (d :: L') = .ok (v, d2 :: L') := by
        cases d with
        | val n w rest =>
          simp only [docReader] at h1 ⊢
          split at h1
          · rename_i hk; cases h1; exact ⟨rest, rfl, fun _ => by rw [if_pos hk]⟩
          · cases h1
        | nil => cases h1
        | obj _ _ _ _ _ _ => cases h1
        | ref _ _ _ => cases h1
      obtain ⟨d2, rfl, hd2⟩ := this
      obtain ⟨d', rfl, hd'⟩ := ih _ _ _ _ _ _ _ h2
      exact ⟨d', rfl, fun L' => by rw [hd2]; exact hd' L'⟩
    · obtain ⟨⟨p, L2, g2⟩, h1, h2⟩ := except_bind_ok h
      obtain ⟨d2, rfl, hd2⟩ := hp _ _ _ _ _ _ h1
      obtain ⟨d', rfl, hd'⟩ := ih _ _ _ _ _ _ _ h2
      exact ⟨d', rfl, fun L' => by rw [hd2]; exact hd' L'⟩

/-- The rest of `read_object` after `read_object_begin`. -/
theorem readPtr_local (S : Schema) (fuel : Nat) : Local (readPtr docReader S fuel) ∧
    (∀ n c ver ix ch rest L g p L1 g', readPtr docReader S fuel (.obj n c ver ix ch rest :: L) g = .ok (p, L1, g') → L1 = rest :: L ∧
      ∀ rest' L', readPtr docReader S fuel (.obj n c ver ix ch rest' :: L') g = .ok (p, rest' :: L', g')) ∧
    (∀ n ix rest L g p L1 g', readPtr docReader S fuel (.ref n ix rest :: L) g = .ok (p, L1, g') → L1 = rest :: L ∧
      ∀ rest' L', readPtr docReader S fuel (.ref n ix rest' :: L') g = .ok (p, rest' :: L', g')) := by
  induction fuel with
  | zero =>
    refine ⟨?_, ?_, ?_⟩
    · intro d L g p L1 g' h; cases h
    · intro _ _ _ _ _ _ _ _ _ _ _ h; cases h
    · intro _ _ _ _ _ _ _ _ h; cases h
  | succ fuel ih =>
    have hobj : ∀ n c ver ix ch rest L g p L1 g', readPtr docReader S (fuel + 1) (.obj n c ver ix ch rest :: L) g = .ok (p, L1, g') →
        L1 = rest :: L ∧ ∀ rest' L', readPtr docReader S (fuel + 1) (.obj n c ver ix ch rest' :: L') g = .ok (p, rest' :: L', g') := by
      intro n c ver ix ch rest L g p L1 g' h
      unfold readPtr at h ⊢
      simp only [docReader, bind, Except.bind] at h ⊢
      by_cases c1 : c = refClass
      · rw [if_pos c1] at h
        have e := endOrSkip_doc ch rest L
        simp only [docReader] at e
        rw [e] at h
        cases h
        refine ⟨rfl, fun rest' L' => ?_⟩
        rw [if_pos c1]
        have e := endOrSkip_doc ch rest' L'
        simp only [docReader] at e
        rw [e]
        rfl
      · rw [if_neg c1] at h
        by_cases c2 : c = nullClass
        · rw [if_pos c2] at h
          cases h
          refine ⟨rfl, fun rest' L' => ?_⟩
          rw [if_neg c1, if_pos c2]
          rfl
        · rw [if_neg c2] at h
          cases hc : classFor c with
          | none =>
            rw [hc] at h
            dsimp only at h
            have e := endOrSkip_doc ch rest L
            simp only [docReader] at e
            rw [e] at h
            cases h
            refine ⟨rfl, fun rest' L' => ?_⟩
            rw [if_neg c1, if_neg c2]
            dsimp only
            have e := endOrSkip_doc ch rest' L'
            simp only [docReader] at e
            rw [e]
            rfl
          | some cl =>
            rw [hc] at h
            dsimp only at h
            obtain ⟨⟨fs, L2, g2⟩, h3, h4⟩ := except_bind_ok h
            obtain ⟨d2, rfl, hd2⟩ := readFields_local ih.1 _ _ _ _ _ _ _ _ _ h3
            dsimp only at h4
            have e := endOrSkip_doc d2 rest L
            simp only [docReader] at e
            rw [e] at h4
            cases h4
            refine ⟨rfl, fun rest' L' => ?_⟩
            rw [if_neg c1, if_neg c2]
            dsimp only
            have e2 := hd2 (rest' :: L')
            simp only [docReader] at e2
            rw [e2]
            dsimp only
            have e := endOrSkip_doc d2 rest' L'
            simp only [docReader] at e
            rw [e]
            rfl
    have href : ∀ n ix rest L g p L1 g', readPtr docReader S (fuel + 1) (.ref n ix rest :: L) g = .ok (p, L1, g') →
        L1 = rest :: L ∧ ∀ rest' L', readPtr docReader S (fuel + 1) (.ref n ix rest' :: L') g = .ok (p, rest' :: L', g') := by
      intro n ix rest L g p L1 g' h
      have := hobj n refClass 0 ix .nil rest L g p L1 g' h
      exact this
    refine ⟨?_, hobj, href⟩
    intro d L g p L1 g' h
    cases d with
    | nil => cases h
    | val _ _ _ => cases h
    | obj n c ver ix ch rest =>
      obtain ⟨rfl, h2⟩ := hobj _ _ _ _ _ _ _ _ _ _ _ h
      exact ⟨rest, rfl, fun L' => h2 _ _⟩
    | ref n ix rest =>
      obtain ⟨rfl, h2⟩ := href _ _ _ _ _ _ _ _ h
      exact ⟨rest, rfl, fun L' => h2 _ _⟩

end Verif.Ar
