import Verif.Lemmas.Behind
import Verif.Lemmas.OpenTame
import Verif.Model.WholeMesh
import Verif.Model.ArchiveGraph
import Verif.Model.ArchiveBinsafe

/-!
# Archives that do not care what is in front

`TwinRd S r`: the calls of the reader `r` on states in relation `S` have the same outcome and keep the relation. Whatever uses an archive only
through these calls does the same on both.
-/

namespace Verif

open Spec

namespace Ar

/-- The same value and related states, or the same failure. -/
def XR {σ α} (S : σ → σ → Prop) (x y : Except Fail (α × σ)) : Prop :=
  (∃ a s t, x = .ok (a, s) ∧ y = .ok (a, t) ∧ S s t) ∨ ∃ e, x = .error e ∧ y = .error e

structure TwinRd {σ} (S : σ → σ → Prop) (r : Reader σ) : Prop where
  objBegin : ∀ s t, S s t → XR S (r.objBegin s) (r.objBegin t)
  objEnd : ∀ s t, S s t → XR S (r.objEnd s) (r.objEnd t)
  val : ∀ k s t, S s t → XR S (r.val k s) (r.val k t)
  skipObj : ∀ b s t, S s t → XR S (r.skipObj b s) (r.skipObj b t)

variable {σ : Type} {S : σ → σ → Prop} {r : Reader σ}

theorem TwinRd.endOrSkip (h : TwinRd S r) {s t : σ} (hs : S s t) : XR S (endOrSkip r s) (endOrSkip r t) := by
  unfold Ar.endOrSkip
  rcases h.objEnd s t hs with ⟨b, s1, t1, e1, e2, h1⟩ | ⟨e, e1, e2⟩
  · rw [e1, e2]
    cases b
    · exact h.skipObj true _ _ h1
    · exact .inl ⟨(), s1, t1, rfl, rfl, h1⟩
  · rw [e1, e2]
    exact .inr ⟨e, rfl, rfl⟩

/-- The same for what also keeps the objects that were made. -/
def XG {σ α} (S : σ → σ → Prop) (x y : Except Fail (α × σ × GRd)) : Prop :=
  (∃ a s t g, x = .ok (a, s, g) ∧ y = .ok (a, t, g) ∧ S s t) ∨ ∃ e, x = .error e ∧ y = .error e

theorem TwinRd.readFields (h : TwinRd S r) {ptr : σ → GRd → Except Fail (Option Nat × σ × GRd)}
    (hp : ∀ s t g, S s t → XG S (ptr s g) (ptr t g)) (W : List Seen → Option Want) (fuel : Nat) :
    ∀ acc s t g, S s t → XG S (readFields r ptr W fuel acc s g) (readFields r ptr W fuel acc t g) := by
  induction fuel with
  | zero => intro acc s t g _; exact .inr ⟨_, rfl, rfl⟩
  | succ fuel ih =>
    intro acc s t g hs
    unfold Ar.readFields
    split
    · exact .inl ⟨_, _, _, _, rfl, rfl, hs⟩
    · rename_i k _
      rcases h.val k s t hs with ⟨v, s1, t1, e1, e2, h1⟩ | ⟨e, e1, e2⟩
      · rw [e1, e2]
        exact ih _ _ _ _ h1
      · rw [e1, e2]
        exact .inr ⟨e, rfl, rfl⟩
    · rcases hp s t g hs with ⟨v, s1, t1, g1, e1, e2, h1⟩ | ⟨e, e1, e2⟩
      · rw [e1, e2]
        exact ih _ _ _ _ h1
      · rw [e1, e2]
        exact .inr ⟨e, rfl, rfl⟩

theorem TwinRd.readPtr (h : TwinRd S r) (W : Schema) (fuel : Nat) :
    ∀ s t g, S s t → XG S (readPtr r W fuel s g) (readPtr r W fuel t g) := by
  induction fuel with
  | zero => intro s t g _; exact .inr ⟨_, rfl, rfl⟩
  | succ fuel ih =>
    intro s t g hs
    unfold Ar.readPtr
    rcases h.objBegin s t hs with ⟨o, s1, t1, e1, e2, h1⟩ | ⟨e, e1, e2⟩
    · rw [e1, e2]
      cases o with
      | none => exact .inl ⟨_, _, _, _, rfl, rfl, h1⟩
      | some hd =>
        dsimp only [bind, Except.bind]
        split
        · rcases h.endOrSkip h1 with ⟨_, s2, t2, f1, f2, h2⟩ | ⟨e, f1, f2⟩
          · rw [f1, f2]; exact .inl ⟨_, _, _, _, rfl, rfl, h2⟩
          · rw [f1, f2]; exact .inr ⟨e, rfl, rfl⟩
        split
        · rcases h.skipObj true _ _ h1 with ⟨_, s2, t2, f1, f2, h2⟩ | ⟨e, f1, f2⟩
          · rw [f1, f2]; exact .inl ⟨_, _, _, _, rfl, rfl, h2⟩
          · rw [f1, f2]; exact .inr ⟨e, rfl, rfl⟩
        cases classFor hd.cls with
        | none =>
          dsimp only
          rcases h.endOrSkip h1 with ⟨_, s2, t2, f1, f2, h2⟩ | ⟨e, f1, f2⟩
          · rw [f1, f2]; exact .inl ⟨_, _, _, _, rfl, rfl, h2⟩
          · rw [f1, f2]; exact .inr ⟨e, rfl, rfl⟩
        | some cl =>
          dsimp only
          rcases h.readFields ih (W cl.type) fuel [] s1 t1 ⟨g.heap ++ [(cl.type, [])], insertOrAssign g.cache hd.index g.heap.length⟩ h1 with
            ⟨fs, s2, t2, g2, f1, f2, h2⟩ | ⟨e, f1, f2⟩
          · rw [f1, f2]
            dsimp only
            rcases h.endOrSkip h2 with ⟨_, s3, t3, k1, k2, h3⟩ | ⟨e, k1, k2⟩
            · rw [k1, k2]; exact .inl ⟨_, _, _, _, rfl, rfl, h3⟩
            · rw [k1, k2]; exact .inr ⟨e, rfl, rfl⟩
          · rw [f1, f2]; exact .inr ⟨e, rfl, rfl⟩
    · rw [e1, e2]
      exact .inr ⟨e, rfl, rfl⟩

end Ar

namespace Obj

open Ar

variable {σ : Type} {S : σ → σ → Prop} {r : Reader σ}

theorem Ld.sim (h : TwinRd S r) {α} (p : Ld Unit α) : ∀ s t, S s t → XR S (p.exec r s) (p.exec r t) := by
  induction p with
  | ret a => intro s t hs; exact .inl ⟨a, s, t, rfl, rfl, hs⟩
  | fail e => intro s t _; exact .inr ⟨e, rfl, rfl⟩
  | val k f ih =>
    intro s t hs
    unfold Ld.exec
    rcases h.val k s t hs with ⟨v, s1, t1, e1, e2, h1⟩ | ⟨e, e1, e2⟩
    · rw [e1, e2]
      exact ih _ _ _ h1
    · rw [e1, e2]
      exact .inr ⟨e, rfl, rfl⟩
  | ptr f => intro s t _; exact .inr ⟨_, rfl, rfl⟩
  | ptrAs k f => intro s t _; exact .inr ⟨_, rfl, rfl⟩
  | skip p => intro s t _; exact .inr ⟨_, rfl, rfl⟩

namespace Material

theorem sim_from (h : TwinRd S r) (o : Material) {s t : σ} (hs : S s t) : XR S (loadFrom r o s) (loadFrom r o t) := by
  unfold loadFrom
  rcases h.val .string s t hs with ⟨v, s1, t1, e1, e2, h1⟩ | ⟨e, e1, e2⟩
  · rw [e1, e2]
    dsimp only
    rcases h.objBegin s1 t1 h1 with ⟨a, s2, t2, e1, e2, h2⟩ | ⟨e, e1, e2⟩
    · rw [e1, e2]
      cases a with
      | none => exact .inr ⟨_, rfl, rfl⟩
      | some hd =>
        dsimp only
        split
        · exact .inr ⟨_, rfl, rfl⟩
        · rcases Ld.sim h (Material.load ⟨game hd.version, false, false⟩ o) s2 t2 h2 with ⟨m, s3, t3, e1, e2, h3⟩ | ⟨e, e1, e2⟩
          · rw [e1, e2]
            dsimp only
            rcases h.endOrSkip h3 with ⟨u, s4, t4, e1, e2, h4⟩ | ⟨e, e1, e2⟩
            · rw [e1, e2]; exact .inl ⟨_, _, _, rfl, rfl, h4⟩
            · rw [e1, e2]; exact .inr ⟨e, rfl, rfl⟩
          · rw [e1, e2]; exact .inr ⟨e, rfl, rfl⟩
    · rw [e1, e2]; exact .inr ⟨e, rfl, rfl⟩
  · rw [e1, e2]; exact .inr ⟨e, rfl, rfl⟩

theorem sim_many (h : TwinRd S r) (os : List Material) : ∀ s t, S s t → XR S (loadMany r os s) (loadMany r os t) := by
  induction os with
  | nil => intro s t hs; exact .inl ⟨_, _, _, rfl, rfl, hs⟩
  | cons o os ih =>
    intro s t hs
    unfold loadMany
    rcases sim_from h o hs with ⟨m, s1, t1, e1, e2, h1⟩ | ⟨e, e1, e2⟩
    · rw [e1, e2]
      dsimp only
      rcases ih s1 t1 h1 with ⟨ms, s2, t2, e1, e2, h2⟩ | ⟨e, e1, e2⟩
      · rw [e1, e2]; exact .inl ⟨_, _, _, rfl, rfl, h2⟩
      · rw [e1, e2]; exact .inr ⟨e, rfl, rfl⟩
    · rw [e1, e2]; exact .inr ⟨e, rfl, rfl⟩

end Material

end Obj

/-! ## The three readers -/

namespace Ar

variable {c : Shift}

/-- A stream and the same stream behind other bytes. -/
def RsRel (c : Shift) (data : Bytes) (s t : Rs) : Prop :=
  ∃ pos, s = ⟨data, pos⟩ ∧ t = ⟨c.pre ++ data, c.pre.length + pos⟩ ∧ c.lo ≤ pos ∧ pos ≤ data.length

theorem RsRel.of {α} {p : Rd α} (h : Sk c p) {data : Bytes} (hF : c.files data) {s t : Rs} (hs : RsRel c data s t) :
    XR (RsRel c data) (p s) (p t) := by
  obtain ⟨pos, rfl, rfl, l1, l2⟩ := hs
  rcases h data pos hF l1 l2 with ⟨a, b, pos', e1, e2, rfl, m1, m2⟩ | ⟨e, e1, e2⟩
  · exact .inl ⟨a, _, _, e1, e2, pos', rfl, rfl, m1, m2⟩
  · exact .inr ⟨e, e1, e2⟩

theorem fuelledBy {α} (k : Nat → Nat) (p : Nat → Rd α) (h : ∀ n, Sk c (p n)) : Sk c (fun s => p (k (s.data.length - s.pos)) s) := by
  intro data pos hF hl hp
  have e : (c.pre ++ data).length - (c.pre.length + pos) = data.length - pos := by
    rw [List.length_append, Nat.add_sub_add_left]
  have := h (k (data.length - pos)) data pos hF hl hp
  unfold ShAt at this ⊢
  dsimp only
  rw [e]
  exact this

theorem Sk.colorBgra : Sk c Rd.colorBgra := by unfold Rd.colorBgra; shifts

theorem Sk.mat3 : Sk c Rd.mat3 := by unfold Rd.mat3; shifts

namespace Asc

theorem sk_begin : Sk c readObjBegin := by
  unfold readObjBegin
  refine Sk.bind Sk.eof fun _ => Sk.ite (Sk.pure _) ?_
  refine Sh.bind Sk.tell fun x y hxy => Sh.bindEq (Sk.line _) fun l => ?_
  generalize (if l.length ≤ 2 then none else scanHdr l) = o
  cases o with
  | none => exact Sh.bind (Sk.seekBeg hxy) fun _ _ _ => Sk.pure _
  | some hd => exact Sk.pure _

theorem sk_end : Sk c readObjEnd := by
  unfold readObjEnd
  refine Sk.bind Sk.eof fun _ => Sk.ite (Sk.pure _) ?_
  refine Sh.bind Sk.tell fun x y hxy => Sh.bindEq (Sk.line _) fun l => ?_
  split
  · exact Sh.bind (Sk.seekBeg hxy) fun _ _ _ => Sk.pure _
  · exact Sk.pure _

theorem sk_val (k : Kind) : Sk c (readVal k) := by
  have h1 : ∀ t, Sk c (readEntry t) := fun t => by unfold readEntry; shifts
  have h2 : ∀ t, Sk c (Ar.stoi t) := fun t => by
    unfold Ar.stoi
    split
    all_goals shifts
  have h3 : ∀ t, Sk c (stoul t) := fun t => by
    unfold stoul
    split
    all_goals shifts
  have h4 : ∀ t, Sk c (stof t) := fun t => by
    unfold stof
    split
    all_goals shifts
  unfold readVal
  split
  all_goals refine (h1 _).bind fun _ => ?_
  all_goals first
    | exact Sk.pure _
    | exact (h2 _).bind fun _ => Sk.pure _
    | exact (h3 _).bind fun _ => Sk.pure _
    | exact (h4 _).bind fun _ => Sk.pure _
    | exact Sk.ite (Sk.fail _) (Sk.pure _)
    | (split <;> first | exact Sk.pure _ | exact Sk.fail _)

theorem sk_skip (b : Bool) : Sk c (skipObj b) := by
  have h : ∀ n l, Sk c (skipLoop n l) := by
    intro n
    induction n with
    | zero => intro l; exact Sk.fail _
    | succ n ih =>
      intro l
      have hs : Sk c skipStep := by
        unfold skipStep
        refine sk_begin.bind fun o => ?_
        cases o with
        | none => exact sk_end.bind fun _ => Sk.ite (Sk.pure _) ((Sk.line _).bind fun _ => Sk.pure _)
        | some _ => exact Sk.pure _
      exact hs.bind fun _ => Sk.ite (ih _) (Sk.pure _)
  exact fuelledBy (fun n => n + 2) (fun n => skipLoop n (if b then 1 else 0)) fun n => h n _

theorem twin {data : Bytes} (hF : c.files data) : TwinRd (RsRel c data) reader :=
  ⟨fun _ _ hs => RsRel.of sk_begin hF hs, fun _ _ hs => RsRel.of sk_end hF hs, fun k _ _ hs => RsRel.of (sk_val k) hF hs, fun b _ _ hs => RsRel.of (sk_skip b) hF hs⟩

end Asc

namespace Bs

theorem sk_begin : Sk c readObjBegin := by
  unfold readObjBegin
  refine Sk.bind Sk.eof fun _ => Sk.ite (Sk.pure _) ?_
  refine Sh.bind Sk.tell fun x y hxy => Sh.bindEq Sk.u8 fun t => ?_
  split
  · exact Sh.bind (Sk.seekBeg hxy) fun _ _ _ => Sk.pure _
  · refine Sh.bindEq Sk.u16 fun n => Sh.bindEq (Sk.string _) fun l => ?_
    generalize parseHdr l = o
    cases o with
    | none => exact Sh.bind (Sk.seekBeg hxy) fun _ _ _ => Sk.pure _
    | some hd => exact Sk.pure _

theorem sk_end : Sk c readObjEnd := by
  unfold readObjEnd
  refine Sk.bind Sk.eof fun _ => Sk.ite (Sk.pure _) ?_
  refine Sh.bind Sk.tell fun x y hxy => Sh.bindEq Sk.u8 fun t => ?_
  split
  · exact Sh.bind (Sk.seekBeg hxy) fun _ _ _ => Sk.pure _
  refine Sh.bindEq Sk.u16 fun n => ?_
  split
  · exact Sh.bind (Sk.seekBeg hxy) fun _ _ _ => Sk.pure _
  refine Sh.bindEq (Sk.string _) fun n => ?_
  split
  · exact Sh.bind (Sk.seekBeg hxy) fun _ _ _ => Sk.pure _
  · exact Sk.pure _

theorem sk_val (k : Kind) : Sk c (readVal k) := by
  have h1 : ∀ t, Sk c (ensureMeta t) := fun t => by
    have : Sk c (Rd.seek 4 .cur) := Sk.seekCur (c := c) 4
    unfold ensureMeta; shifts
  have h2 : ∀ t, Sk c (ensureMetaLen t) := fun t => by
    have := h1 t
    unfold ensureMetaLen; shifts
  have h3 : ∀ {α} t n (p : Rd α), Sk c p → Sk c (readPrefix t n p) := fun t n p hp => by
    have := h2 t
    unfold readPrefix
    refine this.bind fun l => Sk.ite (Sk.fail _) (hp.bind fun _ => (Sk.seekCur _).bind fun _ => Sk.pure _)
  unfold readVal
  split
  · have := h2 tSTRING
    unfold readString; shifts
  · have := h1 tINTEGER; shifts
  · have := h1 tFLOAT; shifts
  · have := h1 tBYTE; shifts
  · have := h1 tWORD; shifts
  · have := h1 tENUM; shifts
  · have := h1 tBOOL; shifts
  · exact (h1 _).bind fun _ => Sk.colorBgra.bind fun _ => Sk.pure _
  · have := h1 tVEC3; shifts
  · exact (h3 _ _ _ Sk.vec2).bind fun _ => Sk.pure _
  · exact (h3 _ _ _ Sk.aabb).bind fun _ => Sk.pure _
  · exact (h3 _ _ _ Sk.mat3).bind fun _ => Sk.pure _
  · have := h2 tRAW
    unfold readRaw; shifts

theorem sk_skip (b : Bool) : Sk c (skipObj b) := by
  have he : Sk c skipEntry := by
    have : ∀ n : Nat, Sk c (Rd.seek (n : Int) .cur) := Sk.seekCur
    unfold skipEntry
    shifts
    exact this _
  have h : ∀ n l, Sk c (skipLoop n l) := by
    intro n
    induction n with
    | zero => intro l; exact Sk.fail _
    | succ n ih =>
      intro l
      have hs : Sk c skipStep := by
        unfold skipStep
        refine sk_begin.bind fun o => ?_
        cases o with
        | none => exact sk_end.bind fun _ => Sk.ite (Sk.pure _) (he.bind fun _ => Sk.pure _)
        | some _ => exact Sk.pure _
      exact hs.bind fun _ => Sk.ite (ih _) (Sk.pure _)
  exact fuelledBy (fun n => 2 * n + 3) (fun n => skipLoop n (if b then 1 else 0)) fun n => h n _

theorem twin {data : Bytes} (hF : c.files data) : TwinRd (RsRel c data) reader :=
  ⟨fun _ _ hs => RsRel.of sk_begin hF hs, fun _ _ hs => RsRel.of sk_end hF hs, fun k _ _ hs => RsRel.of (sk_val k) hF hs, fun b _ _ hs => RsRel.of (sk_skip b) hF hs⟩

end Bs

namespace Bin

/-- The ends of the objects move along. -/
def RrRel (c : Shift) (data : Bytes) (s t : Rr) : Prop := RsRel c data s.rs t.rs ∧ List.Forall₂ c.At s.ends t.ends

theorem lift_of {α} {p : Rd α} (h : Sk c p) {data : Bytes} (hF : c.files data) {s t : Rr} (hs : RrRel c data s t) :
    XR (RrRel c data) (lift p s) (lift p t) := by
  unfold lift
  rcases RsRel.of h hF hs.1 with ⟨a, s1, t1, e1, e2, h1⟩ | ⟨e, e1, e2⟩
  · rw [e1, e2]; exact .inl ⟨a, _, _, rfl, rfl, h1, hs.2⟩
  · rw [e1, e2]; exact .inr ⟨e, rfl, rfl⟩

theorem sk_hdr : Sh c (fun a b => c.At a.1 b.1 ∧ a.2 = b.2) readHdr readHdr := by
  unfold readHdr
  exact Sh.bind Sk.tell fun x y hxy => Sh.bindEq Sk.u32 fun n => Sh.bindEq Sk.u16 fun _ => Sh.bindEq Sk.u32 fun _ =>
    Sh.bindEq (Sk.line _) fun _ => Sh.bindEq (Sk.line _) fun _ =>
    Sh.pure ⟨⟨Nat.le_trans hxy.1 (Nat.le_add_right _ _), by dsimp only; rw [hxy.2, Nat.add_assoc]⟩, rfl⟩

theorem sk_val (k : Kind) : Sk c (readVal k) := by
  have := Sk.colorBgra (c := c)
  have := Sk.mat3 (c := c)
  unfold readVal
  split
  all_goals shifts

theorem twin {data : Bytes} (hF : c.files data) : TwinRd (RrRel c data) reader where
  objBegin s t hs := by
    obtain ⟨rs, ends⟩ := s
    obtain ⟨rt, ends'⟩ := t
    obtain ⟨⟨pos, rfl, rfl, l1, l2⟩, he⟩ := hs
    show XR _ (readObjBegin _) (readObjBegin _)
    unfold readObjBegin
    dsimp only at he ⊢
    rw [List.length_append]
    by_cases h : pos ≥ data.length
    · rw [if_pos h, if_pos (by omega)]
      exact .inl ⟨_, _, _, rfl, rfl, ⟨pos, rfl, rfl, l1, l2⟩, he⟩
    · rw [if_neg h, if_neg (by omega)]
      rcases sk_hdr data pos hF l1 l2 with ⟨a, b, pos', e1, e2, hr, m1, m2⟩ | ⟨e, e1, e2⟩
      · obtain ⟨a1, a2⟩ := a
        obtain ⟨b1, b2⟩ := b
        obtain ⟨r1, r2⟩ := hr
        dsimp only at r1 r2
        subst r2
        rw [e1, e2]
        exact .inl ⟨_, _, _, rfl, rfl, ⟨pos', rfl, rfl, m1, m2⟩, .cons r1 he⟩
      · rw [e1, e2]; exact .inr ⟨e, rfl, rfl⟩
  objEnd s t hs := by
    obtain ⟨rs, ends⟩ := s
    obtain ⟨rt, ends'⟩ := t
    obtain ⟨⟨pos, rfl, rfl, l1, l2⟩, he⟩ := hs
    show XR _ (readObjEnd _) (readObjEnd _)
    unfold readObjEnd
    dsimp only at he ⊢
    cases he with
    | nil => exact .inr ⟨_, rfl, rfl⟩
    | @cons a b as bs h1 h2 =>
      dsimp only
      rw [List.length_append]
      by_cases h : pos = a
      · rw [if_pos h, if_pos (by rw [h1.2, h])]
        exact .inl ⟨_, _, _, rfl, rfl, ⟨pos, rfl, rfl, l1, l2⟩, h2⟩
      · rw [if_neg h, if_neg (by rw [h1.2]; omega)]
        have : decide (c.pre.length + pos ≥ c.pre.length + data.length) = decide (pos ≥ data.length) := by
          rw [decide_eq_decide]; omega
        rw [this]
        exact .inl ⟨_, _, _, rfl, rfl, ⟨pos, rfl, rfl, l1, l2⟩, .cons h1 h2⟩
  val k s t hs := lift_of (sk_val k) hF hs
  skipObj b s t hs := by
    cases b with
    | false => exact lift_of (by unfold skipNext; exact Sk.u32.bind fun _ => Sk.seekCur _) hF hs
    | true =>
      obtain ⟨rs, ends⟩ := s
      obtain ⟨rt, ends'⟩ := t
      obtain ⟨⟨pos, rfl, rfl, l1, l2⟩, he⟩ := hs
      show XR _ (skipCurrent _) (skipCurrent _)
      unfold skipCurrent
      dsimp only at he ⊢
      cases he with
      | nil => exact .inr ⟨_, rfl, rfl⟩
      | @cons a b as bs h1 h2 =>
        dsimp only
        unfold lift
        dsimp only
        rcases Sk.seekBeg h1 data pos hF l1 l2 with ⟨x, y, pos', e1, e2, hr, m1, m2⟩ | ⟨e, e1, e2⟩
        · subst hr
          rw [e1, e2]
          exact .inl ⟨_, _, _, rfl, rfl, ⟨pos', rfl, rfl, m1, m2⟩, h2⟩
        · rw [e1, e2]; exact .inr ⟨e, rfl, rfl⟩

end Bin

/-! ## Opening -/

theorem sk_header : Sk c loadHeader := by
  have h2 : ∀ t, Sk c (Ar.stoi t) := fun t => by
    unfold Ar.stoi
    split
    all_goals shifts
  unfold loadHeader
  shifts
  all_goals try exact h2 _

theorem sk_count (ignore : Bytes) : Sk c (readCountHeader ignore) := by
  have h2 : ∀ t, Sk c (Ar.stoi t) := fun t => by
    unfold Ar.stoi
    split
    all_goals shifts
  unfold readCountHeader
  exact (Sk.line _).bind fun _ => Sk.ite (Sk.fail _) ((h2 _).bind fun _ => (Sk.lineThenIgnore _).bind fun _ => Sk.ite (Sk.fail _) (Sk.pure _))

theorem sk_open (hB : ∀ data, c.files data → NoBinsafe data) : Sk c openArchive := by
  intro data pos hF l1 l2
  unfold openArchive
  refine ShAt.bind (sk_header data pos hF l1 l2) fun h _ pos1 hr e1 m1 m2 => ?_
  subst hr
  have hfmt : FmtIn data h.format := by
    rcases loadHeader_runs (hB data hF).1 pos l2 with ⟨a, p', f1, _, _, f2⟩ | ⟨e, f1, _⟩
    · rw [f1] at e1; cases e1; exact f2
    · rw [f1] at e1; cases e1
  refine (show Sk c _ from ?_) data pos1 hF m1 m2
  revert hfmt
  cases h.format with
  | ascii => intro _; exact (sk_count _).bind fun _ => Sk.pure _
  | binary => intro _; exact (sk_count _).bind fun _ => Sk.pure _
  | binsafe => intro hf; exact absurd hf (hB data hF).2

end Ar

namespace Obj.Material

open Ar

variable {c : Shift}

theorem sk_in (fmt : Fmt) (os : List Material) : Sk c (loadIn fmt os) := by
  intro data pos hF l1 l2
  have hr : RsRel c data ⟨data, pos⟩ ⟨c.pre ++ data, c.pre.length + pos⟩ := ⟨pos, rfl, rfl, l1, l2⟩
  cases fmt with
  | ascii =>
    rcases sim_many (Asc.twin hF) os _ _ hr with ⟨a, _, _, e1, e2, pos', rfl, rfl, m1, m2⟩ | ⟨e, e1, e2⟩
    · exact .inl ⟨a, a, pos', e1, e2, rfl, m1, m2⟩
    · exact .inr ⟨e, e1, e2⟩
  | binsafe =>
    rcases sim_many (Bs.twin hF) os _ _ hr with ⟨a, _, _, e1, e2, pos', rfl, rfl, m1, m2⟩ | ⟨e, e1, e2⟩
    · exact .inl ⟨a, a, pos', e1, e2, rfl, m1, m2⟩
    · exact .inr ⟨e, e1, e2⟩
  | binary =>
    unfold ShAt loadIn
    dsimp only
    rcases sim_many (Bin.twin hF) os ⟨⟨data, pos⟩, []⟩ ⟨⟨c.pre ++ data, c.pre.length + pos⟩, []⟩ ⟨hr, .nil⟩ with
      ⟨a, ⟨s, _⟩, ⟨t, _⟩, e1, e2, ⟨pos', h1, h2, m1, m2⟩, _⟩ | ⟨e, e1, e2⟩
    · dsimp only at h1 h2
      subst h1 h2
      rw [e1, e2]
      exact .inl ⟨a, a, pos', rfl, rfl, rfl, m1, m2⟩
    · rw [e1, e2]
      exact .inr ⟨e, rfl, rfl⟩

theorem sk_counted (hB : ∀ data, c.files data → NoBinsafe data) (os : List Material) : Sk c (loadCounted os) :=
  (sk_open hB).bind fun _ => Sk.u32.bind fun _ => sk_in _ _

theorem sk_parts (hB : ∀ data, c.files data → NoBinsafe data) (n : Nat) : Sk c (loadParts n) :=
  (sk_open hB).bind fun _ => sk_in _ _

end Obj.Material

theorem WholeMesh.sk {c : Shift} (hB : ∀ data, c.files data → NoBinsafe data) (wide : Bool) (m : WholeMesh) : Sk c (WholeMesh.load wide m) := by
  unfold WholeMesh.load
  refine (Sk.chunked (fun st t => ?_) _).bind fun _ => Sk.pure _
  unfold WholeMesh.onChunk WholeMesh.onChunkV
  have h0 : Sk c (Tex.Texture.load {}) := Tex.Texture.sk _
  have h1 : ∀ m, Sk c (Obj.Material.loadCounted m) := Obj.Material.sk_counted hB
  have h2 : ∀ m : WholeMesh, Sk c m.loadShared := fun m => by
    have hp : ∀ a b, Sk c (LightMap.loadShared a b) := fun a b => by
      unfold LightMap.loadShared LightMap.pick; shifts
    unfold WholeMesh.loadShared
    shifts
    exact hp _ _
  have h3 : ∀ m : WholeMesh, Sk c m.loadOwn := fun m => by
    have hp : Sk c LightMap.loadOwn := by
      unfold LightMap.loadOwn; shifts
    unfold WholeMesh.loadOwn
    shifts
  refine Sk.ite ((h1 _).bind fun _ => Sk.pure _) (Sk.ite ((h2 _).bind fun _ => Sk.pure _) (Sk.ite ((h3 _).bind fun _ => Sk.pure _) ?_))
  exact (Mesh.sk_chunk _ _ _ _).bind fun _ => Sk.pure _

end Verif
