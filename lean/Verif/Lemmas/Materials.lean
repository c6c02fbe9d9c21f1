import Verif.Spec.Materials
import Verif.Props.ObjLight
import Verif.Lemmas.ArchiveHeader

/-! # Lemmas: the materials of meshes -/

namespace Verif.Obj

open Verif.Ar

/-- A program that reads no pointers finds in an archive what it expects in a list of values. -/
theorem Ld.exec_ok {σ α} {r : Reader σ} (M : Sim r) {env : Env Unit} {φ : Nat → Unit} (fs : List Field) (rest : Doc) (L : List Doc)
    (y : α) : ∀ (p : Ld Unit α) (s : σ), Flat fs → p.run env (fs.map (Field.item φ)) = .ok (y, []) →
      M.R ((flatDoc fs).app rest :: L) s → ∃ s', p.exec r s = .ok (y, s') ∧ M.R (rest :: L) s' := by
  induction fs with
  | nil =>
    intro p s _ hr h
    cases p with
    | ret a => cases hr; exact ⟨s, rfl, h⟩
    | fail e => cases hr
    | val k f => cases hr
    | ptr f => cases hr
    | ptrAs t f => cases hr
    | skip p => cases hr
  | cons f fs ih =>
    intro p s hf hr h
    obtain ⟨n, v, rfl⟩ := hf f List.mem_cons_self
    have hf' : Flat fs := fun f h => hf f (List.mem_cons_of_mem _ h)
    cases p with
    | ret a => cases hr
    | fail e => cases hr
    | val k f =>
      simp only [List.map_cons, Field.item, Ld.run] at hr
      by_cases hk : v.kind = k
      · rw [if_pos hk] at hr
        subst hk
        obtain ⟨s1, e1, h1⟩ := M.val _ _ _ _ _ h
        obtain ⟨s2, e2, h2⟩ := ih (f v) s1 hf' hr h1
        exact ⟨s2, by rw [Ld.exec, e1]; exact e2, h2⟩
      · rw [if_neg hk] at hr
        cases hr
    | ptr f => cases hr
    | ptrAs t f => cases hr
    | skip p => cases hr

namespace Material

/-- What is kept of `alpha_func`. -/
def alpha (x : Material) : BitVec 32 := if x.alphaFunc = 0 then 0 else 1

theorem alpha_lt (x : Material) : x.alpha.toNat < 256 := by unfold alpha; split <;> decide

/-- The entries of a material, with the enumeration that `load` expects. -/
def entries (g : Game) (a : BitVec 32) (x : Material) : List Field := x.saveWith (fEnum b!"alphaFunc" a) ⟨g, false, false⟩

theorem entries_flat (g : Game) (a : BitVec 32) (x : Material) : Flat (x.entries g a) := by
  intro f hf
  cases g with
  | g1 =>
    simp only [entries, Material.saveWith, fIf, Ctx.g2, reduceCtorEq, decide_false, Bool.false_eq_true, if_false, List.mem_append,
      List.mem_cons, List.not_mem_nil, or_false, false_or] at hf
    rcases hf with (rfl|rfl|rfl|rfl|rfl|rfl|rfl|rfl|rfl|rfl|rfl|rfl|rfl)|rfl <;> exact ⟨_, _, rfl⟩
  | g2 =>
    simp only [entries, Material.saveWith, fIf, Ctx.g2, decide_true, if_true, List.mem_append, List.mem_cons, List.not_mem_nil, or_false] at hf
    rcases hf with (rfl|rfl|rfl|rfl|rfl|rfl|rfl|rfl|rfl|rfl|rfl|rfl|rfl)|(rfl|rfl|rfl|rfl|rfl|rfl|rfl|rfl|rfl|rfl)|rfl <;> exact ⟨_, _, rfl⟩

theorem entries_ok (g : Game) (a : BitVec 32) (hlt : a.toNat < 256) (x : Material) (h : x.Plain) :
    ∀ n v, Field.val n v ∈ x.entries g a → Bin.OkVal v := by
  have small : ∀ v : BitVec 8, (v.setWidth 32).toNat < 256 := by
    intro v
    have := v.isLt
    simp only [BitVec.toNat_setWidth]
    omega
  intro n v hf
  cases g with
  | g1 =>
    simp only [entries, Material.saveWith, fIf, Ctx.g2, reduceCtorEq, decide_false, Bool.false_eq_true, if_false, List.mem_append,
      List.mem_cons, List.not_mem_nil, or_false, false_or] at hf
    rcases hf with (hf|hf|hf|hf|hf|hf|hf|hf|hf|hf|hf|hf|hf)|hf <;> cases hf <;>
      first
      | trivial
      | exact h.name
      | exact h.texture
      | exact h.detail
      | exact h.mode
      | exact hlt
      | exact small _
      | exact vec2Text_noEol _
  | g2 =>
    simp only [entries, Material.saveWith, fIf, Ctx.g2, decide_true, if_true, List.mem_append, List.mem_cons, List.not_mem_nil, or_false] at hf
    rcases hf with (hf|hf|hf|hf|hf|hf|hf|hf|hf|hf|hf|hf|hf)|(hf|hf|hf|hf|hf|hf|hf|hf|hf|hf)|hf <;> cases hf <;>
      first
      | trivial
      | exact h.name
      | exact h.texture
      | exact h.detail
      | exact h.mode
      | exact hlt
      | exact small _
      | exact vec2Text_noEol _

/-- The materials as a document; the first object has the number `i`. -/
def docOf (g : Game) (al : Material → BitVec 32) : BitVec 32 → List Material → Doc
  | _, [] => .nil
  | i, x :: xs => .val [] (.string x.name) (.obj b!"%" b!"zCMaterial" (version g) i (flatDoc (x.entries g (al x))) (docOf g al (i + 1) xs))

theorem docOf_numbered (g : Game) (al : Material → BitVec 32) (xs : List Material) : ∀ i, (docOf g al i xs).Numbered i := by
  induction xs with
  | nil => intro i; trivial
  | cons x xs ih =>
    intro i
    refine ⟨rfl, flatDoc_numbered _ _, ?_⟩
    have : (flatDoc (x.entries g (al x))).next (i + 1) = i + 1 := by
      have : ∀ fs : List Field, ∀ j, (flatDoc fs).next j = j := by
        intro fs
        induction fs with
        | nil => intro j; rfl
        | cons f fs ih => intro j; cases f <;> exact ih j
      exact this _ _
    show (docOf g al (i + 1) xs).Numbered ((flatDoc (x.entries g (al x))).next (i + 1))
    rw [this]
    exact ih _

theorem flatDoc_next (fs : List Field) (i : BitVec 32) : (flatDoc fs).next i = i := by
  induction fs with
  | nil => rfl
  | cons f fs ih => cases f <;> exact ih

theorem docOf_next (g : Game) (al : Material → BitVec 32) (xs : List Material) : ∀ i, (docOf g al i xs).next i = i + BitVec.ofNat 32 xs.length := by
  induction xs with
  | nil => intro i; simp [docOf, Doc.next]
  | cons x xs ih =>
    intro i
    show (docOf g al (i + 1) xs).next ((flatDoc (x.entries g (al x))).next (i + 1)) = _
    rw [flatDoc_next, ih]
    apply BitVec.eq_of_toNat_eq
    have e1 : (1 : BitVec 32).toNat = 1 := rfl
    simp only [BitVec.toNat_add, BitVec.toNat_ofNat, List.length_cons, e1]
    omega

theorem docOf_all (g : Game) (al : Material → BitVec 32) (xs : List Material) (h : ∀ x ∈ xs, x.Plain) (ha : ∀ x ∈ xs, (al x).toNat < 256) :
    ∀ i, (docOf g al i xs).All (fun _ v => Bin.OkVal v) (fun n c _ _ => NoEol n ∧ NoEol c) := by
  induction xs with
  | nil => intro i; trivial
  | cons x xs ih =>
    intro i
    have hx := h x List.mem_cons_self
    exact ⟨hx.name, ⟨by decide, by decide⟩, flatDoc_all _ (entries_ok g _ (ha x List.mem_cons_self) x hx),
      ih (fun y hy => h y (List.mem_cons_of_mem _ hy)) (fun y hy => ha y (List.mem_cons_of_mem _ hy)) _⟩

/-- The calls for the materials write the document. -/
theorem calls_docOf (g : Game) (xs : List Material) : ∀ (i : BitVec 32) (w : Bin.Wr),
    Bin.calls w (xs.flatMap (callsFor g)) = Bin.calls w (docOf g alpha i xs).calls := by
  induction xs with
  | nil => intro i w; rfl
  | cons x xs ih =>
    intro i w
    have e1 := Verif.Props.c79_material_binary (c := ⟨g, false, false⟩) x
    have app : ∀ a b (w : Bin.Wr), Bin.calls w (a ++ b) = (Bin.calls w a).bind fun w => Bin.calls w b := fun a b w => List.foldlM_append
    have l1 : (x :: xs).flatMap (callsFor g) = [.val [] (.string x.name), .begin b!"%" b!"zCMaterial" (version g)] ++
        (flatCalls (x.save ⟨g, false, false⟩) ++ ([.finish] ++ xs.flatMap (callsFor g))) := by
      simp only [List.flatMap_cons, callsFor, List.cons_append, List.append_assoc, List.nil_append]
    have l2 : (docOf g alpha i (x :: xs)).calls = [.val [] (.string x.name), .begin b!"%" b!"zCMaterial" (version g)] ++
        (flatCalls (x.entries g x.alpha) ++ ([.finish] ++ (docOf g alpha (i + 1) xs).calls)) := by
      simp only [docOf, Doc.calls, List.cons_append, List.nil_append, flatDoc_calls]
    rw [l1, l2, app, app]
    refine congrArg (Option.bind _) (funext fun w => ?_)
    rw [app, app, e1]
    refine congrArg (Option.bind _) (funext fun w => ?_)
    rw [app, app]
    exact congrArg (Option.bind _) (funext fun w => ih _ w)

/-- The bytes of the header of a finished archive. -/
def headBytes (e : Ar.Env) (n : Nat) : Bytes := linesBytes .binary false e ++ countBytes 9 10 (BitVec.ofNat 32 n)

/-- The bytes of the materials. -/
def bodyBytes (g : Game) (xs : List Material) : Bytes := Bin.enc (docOf g alpha 0 xs)

theorem saveArchive_ok (g : Game) (e e' : Ar.Env) (he : ClockOk e e') (front : Ws → Ws) (fb : Bytes) (hf : Emits front fb)
    (xs : List Material) (w : Ws) (hw : w.pos ≤ w.data.length) :
    saveArchive g e e' front xs w = .ok (w.write (headBytes e' xs.length ++ (fb ++ bodyBytes g xs))) := by
  have h1 := emits_countHeader .binary 9 10 false e 0 w hw
  have hw1 := Ws.write_le w (linesBytes .binary false e ++ countBytes 9 10 0) hw
  have h2 := hf _ hw1
  have hw2 := Ws.write_le _ fb hw1
  have hwr := Bin.write_doc (docOf g alpha 0 xs) ⟨(w.write (linesBytes .binary false e ++ countBytes 9 10 0)).write fb, 0, []⟩ hw2
    (docOf_numbered g alpha xs 0) []
  rw [List.append_nil] at hwr
  unfold saveArchive
  simp only [Bin.writeHeader]
  rw [h1, h2, calls_docOf g xs 0, hwr]
  simp only [Bin.calls, List.foldlM_nil, Option.pure_def]
  rw [Ws.write_write _ _ _ hw1, Ws.write_write _ _ _ hw, rewrite_countHeader _ _ _ _ _ _ _ _ _ (by decide) w hw he.length, docOf_next]
  rw [show (0 : BitVec 32) + BitVec.ofNat 32 xs.length = _ from BitVec.zero_add _]
  rfl

theorem game_version (g : Game) : game (version g) = g := by cases g <;> rfl

theorem copy_kept (g : Game) (x : Material) : x.copy ⟨g, false, false⟩ x.alpha = x.kept g := by cases g <;> rfl

theorem copyOver_kept (g : Game) (o x : Material) : x.copyOver ⟨g, false, false⟩ x.alpha o = x.keptOver g o := by cases g <;> rfl

theorem keptOver_new (g : Game) (x : Material) : x.keptOver g {} = x.kept g := by cases g <;> rfl

theorem keptIn_nil (g : Game) (xs : List Material) : keptIn g [] xs = xs.map (kept g) := by
  induction xs with
  | nil => rfl
  | cons x xs ih => simp only [keptIn, ih, List.map_cons]

theorem keptIn_length (g : Game) (os xs : List Material) : (keptIn g os xs).length = xs.length := by
  induction xs generalizing os with
  | nil => cases os <;> rfl
  | cons x xs ih => cases os <;> simp [keptIn, ih]

theorem keptIn_g2 (os xs : List Material) : keptIn .g2 os xs = xs.map (kept .g2) := by
  induction xs generalizing os with
  | nil => cases os <;> rfl
  | cons x xs ih => cases os <;> simp [keptIn, ih] <;> rfl

theorem zip_resize (g : Game) (os xs : List Material) : List.zipWith (fun o x => x.keptOver g o) (resize os xs.length) xs = keptIn g os xs := by
  induction xs generalizing os with
  | nil => cases os <;> simp [keptIn]
  | cons x xs ih =>
    cases os with
    | nil =>
      have := ih []
      simp only [resize, List.take_nil, List.nil_append, List.length_nil, Nat.sub_zero, List.length_cons, List.replicate_succ,
        List.zipWith_cons_cons, keptIn, keptOver_new] at this ⊢
      rw [this]
    | cons o os =>
      have := ih os
      simp only [resize, List.length_cons, List.take_succ_cons, List.cons_append, List.zipWith_cons_cons, keptIn, Nat.add_sub_add_right]
        at this ⊢
      rw [this]

/-- Loading one material. -/
theorem loadFrom_ok {σ} {r : Reader σ} (M : Sim r) (g : Game) (o : Material) (a : BitVec 32) (i : BitVec 32) (x : Material) (h : x.Finite) (rest : Doc) (L : List Doc)
    (s : σ) (hs : M.R (.val [] (.string x.name) (.obj b!"%" b!"zCMaterial" (version g) i (flatDoc (x.entries g a)) rest) :: L) s) :
    ∃ s', loadFrom r o s = .ok (x.copyOver ⟨g, false, false⟩ a o, s') ∧ M.R (rest :: L) s' := by
  obtain ⟨s1, e1, h1⟩ := M.val _ _ _ _ _ hs
  obtain ⟨s2, e2, h2⟩ := M.obj _ _ _ _ _ _ _ _ h1
  have hld := Material.loadsOver (env := (⟨fun _ _ => true, fun _ => true, fun _ => none, fun _ => false, ()⟩ : Env Unit))
    (φ := fun _ => ()) (c := ⟨g, false, false⟩) o a h []
  rw [List.append_nil] at hld
  have happ : (flatDoc (x.entries g a)).app .nil = flatDoc (x.entries g a) := by
    have := flatDoc_append (x.entries g a) []
    rw [List.append_nil] at this
    exact this.symm
  obtain ⟨s3, e3, h3⟩ := Ld.exec_ok M (x.entries g a) .nil (rest :: L) _ (Material.load ⟨g, false, false⟩ o) s2 (entries_flat g a x) hld
    (by rw [happ]; exact h2)
  obtain ⟨s4, e4, h4⟩ := M.fin _ _ _ h3
  refine ⟨s4, ?_, h4⟩
  unfold loadFrom
  rw [show Val.kind (.string x.name) = .string from rfl] at e1
  rw [e1]
  dsimp only
  rw [e2]
  dsimp only
  rw [if_neg (by simp), game_version, e3]
  dsimp only
  unfold endOrSkip
  rw [e4]
  rfl

theorem loadMany_over {σ} {r : Reader σ} (M : Sim r) (g : Game) (al : Material → BitVec 32) (xs : List Material) :
    ∀ (os : List Material) (i : BitVec 32) (s : σ), os.length = xs.length → (∀ x ∈ xs, x.Finite) →
    M.R [docOf g al i xs] s →
    ∃ s', loadMany r os s = .ok (List.zipWith (fun o x => x.copyOver ⟨g, false, false⟩ (al x) o) os xs, s') ∧ M.R [.nil] s' := by
  induction xs with
  | nil => intro os i s hl _ h; rw [List.length_nil, List.length_eq_zero_iff] at hl; subst hl; exact ⟨s, rfl, h⟩
  | cons x xs ih =>
    intro os i s hl hx h
    cases os with
    | nil => cases hl
    | cons o os =>
      obtain ⟨s1, e1, h1⟩ := loadFrom_ok M g o (al x) i x (hx x List.mem_cons_self) _ [] s h
      obtain ⟨s2, e2, h2⟩ := ih os (i + 1) s1 (by simpa using hl) (fun y hy => hx y (List.mem_cons_of_mem _ hy)) h1
      refine ⟨s2, ?_, h2⟩
      simp only [loadMany, e1, e2, List.zipWith_cons_cons]

theorem loadMany_ok {σ} {r : Reader σ} (M : Sim r) (g : Game) (al : Material → BitVec 32) (xs : List Material)
    (i : BitVec 32) (s : σ) (hx : ∀ x ∈ xs, x.Finite) (h : M.R [docOf g al i xs] s) :
    ∃ s', loadMany r (List.replicate xs.length ({} : Material)) s = .ok (xs.map fun x => x.copy ⟨g, false, false⟩ (al x), s') ∧ M.R [.nil] s' := by
  obtain ⟨s', e, h'⟩ := loadMany_over M g al xs (List.replicate xs.length {}) i s (by simp) hx h
  refine ⟨s', ?_, h'⟩
  rw [e]
  clear e h' h hx
  congr 2
  induction xs with
  | nil => rfl
  | cons x xs ih =>
    simp only [List.length_cons, List.replicate_succ, List.zipWith_cons_cons, List.map_cons, ih]
    rfl

theorem resize_nil (n : Nat) : resize [] n = List.replicate n ({} : Material) := by simp [resize]

theorem resize_length (os : List Material) (n : Nat) : (resize os n).length = n := by
  simp only [resize, List.length_append, List.length_take, List.length_replicate]
  omega

/-- Reading the materials behind the header. -/
theorem reads_over (g : Game) (os xs : List Material) (h : ∀ x ∈ xs, x.Plain) (hl : (bodyBytes g xs).length < 2 ^ 32) :
    Reads (loadIn .binary (resize os xs.length)) (bodyBytes g xs) (keptIn g os xs) := by
  intro pre post
  obtain ⟨⟨⟨d, pos⟩, ends⟩, e1, h1, _, h3, h4, h5⟩ := loadMany_over (Bin.sim (pre ++ bodyBytes g xs ++ post) post []) g alpha xs
    (resize os xs.length) 0 ⟨⟨pre ++ bodyBytes g xs ++ post, pre.length⟩, []⟩ (resize_length os _) (fun x hx => (h x hx).finite) (by
    refine ⟨rfl, ?_, by simp, ?_, by simp [Bin.endsOf]⟩
    · intro d hd
      simp only [List.mem_singleton] at hd
      subst hd
      exact ⟨docOf_all g alpha xs h (fun x _ => alpha_lt x) 0, hl⟩
    · show List.drop _ _ = _
      simp [Bin.encs, bodyBytes])
  show Except.map _ (loadMany Bin.reader (resize os xs.length) _) = _
  rw [e1]
  simp only [copyOver_kept]
  rw [zip_resize]
  simp only at h1 h3 h4 h5
  subst h1
  have : pos = pre.length + (bodyBytes g xs).length := by
    have h4l := congrArg List.length h4
    simp [Bin.encs, Bin.enc] at h4l h3 ⊢
    omega
  subst this
  rfl

theorem reads_body (g : Game) (xs : List Material) (h : ∀ x ∈ xs, x.Plain) (hl : (bodyBytes g xs).length < 2 ^ 32) :
    Reads (loadIn .binary (resize [] xs.length)) (bodyBytes g xs) (xs.map (kept g)) := by
  have := reads_over g [] xs h hl
  rwa [keptIn_nil] at this

theorem loadMany_length {σ} (r : Reader σ) : ∀ (os : List Material) (s : σ) ms s', loadMany r os s = .ok (ms, s') → ms.length = os.length := by
  intro os
  induction os with
  | nil => intro s ms s' h; cases h; rfl
  | cons o os ih =>
    intro s ms s' h
    unfold loadMany at h
    split at h
    · cases h
    · split at h
      · cases h
      · rename_i e
        cases h
        simp [ih _ _ _ e]

theorem loadIn_length (fmt : Fmt) (os : List Material) (s : Rs) (ms : List Material) (s' : Rs) (h : loadIn fmt os s = .ok (ms, s')) :
    ms.length = os.length := by
  unfold loadIn at h
  cases fmt with
  | binary =>
    dsimp only at h
    cases hm : loadMany Bin.reader os ⟨s, []⟩ with
    | error e => rw [hm] at h; cases h
    | ok x =>
      rw [hm] at h
      cases h
      exact loadMany_length _ _ _ _ _ hm
  | binsafe => exact loadMany_length _ _ _ _ _ h
  | ascii => exact loadMany_length _ _ _ _ _ h

theorem bodyBytes_cons (g : Game) (x : Material) (xs : List Material) :
    ∃ (v : BitVec 32) (t : Bytes), bodyBytes g (x :: xs) = x.name ++ 0 :: (encW 4 v ++ t) := by
  refine ⟨BitVec.ofNat 32 (4 + (Bin.hdrBytes b!"%" b!"zCMaterial" (version g) 0 ++ Bin.enc (flatDoc (x.entries g x.alpha))).length),
    Bin.hdrBytes b!"%" b!"zCMaterial" (version g) 0 ++ Bin.enc (flatDoc (x.entries g x.alpha)) ++ Bin.enc (docOf g alpha (0 + 1) xs), ?_⟩
  show (x.name ++ [0]) ++ _ = _
  rw [List.append_assoc]
  show x.name ++ (0 :: (_ ++ _ ++ _)) = _
  simp only [List.append_assoc]

/-- The number 10 behind the header of the archive: it is skipped. -/
theorem ten_reads (g : Game) (e : Ar.Env) (hd : NoEol e.date) (hu : NoEol e.user) (xs : List Material) (hn : xs.length = 10)
    (b : Byte) (t : Bytes) (hb : bodyBytes g xs = b :: t) (os : List Material) (pre post : Bytes) :
    let bs := headBytes e xs.length ++ (encW 4 (BitVec.ofNat 32 xs.length) ++ bodyBytes g xs)
    ∃ s, loadCounted os ⟨pre ++ bs ++ post, pre.length⟩ = loadIn .binary (resize os (b.toNat * 2 ^ 24)) s := by
  have h1 := open_binary_more 1 false e (BitVec.ofNat 32 10) (by decide) (by decide) hd hu
  have hu : Reads Rd.u32 [0, 0, 0, b] (BitVec.ofNat 32 (b.toNat * 2 ^ 24)) := by
    have := Reads.u32 (BitVec.ofNat 32 (b.toNat * 2 ^ 24))
    have hlt := b.toNat_lt
    have e : encW 4 (BitVec.ofNat 32 (b.toNat * 2 ^ 24)) = [0, 0, 0, b] := by
      simp only [encW, BitVec.toNat_ofNat]
      rw [Nat.mod_eq_of_lt (by omega)]
      simp only [leBytes]
      rw [show b.toNat * 2 ^ 24 % 256 = 0 by omega, show b.toNat * 2 ^ 24 / 256 % 256 = 0 by omega,
        show b.toNat * 2 ^ 24 / 256 / 256 % 256 = 0 by omega, show b.toNat * 2 ^ 24 / 256 / 256 / 256 % 256 = b.toNat by omega]
      simp
    rwa [e] at this
  have hnat : (BitVec.ofNat 32 (b.toNat * 2 ^ 24)).toNat = b.toNat * 2 ^ 24 := by
    have hlt := b.toNat_lt
    rw [BitVec.toNat_ofNat, Nat.mod_eq_of_lt (by omega)]
  intro bs
  have hbs : pre ++ bs ++ post = pre ++ (linesBytes .binary false e ++ (countBytes 9 10 (BitVec.ofNat 32 10) ++ List.replicate 1 10)) ++
      ([0, 0, 0, b] ++ (t ++ post)) := by
    simp only [bs, hn, hb, headBytes, List.append_assoc]
    rfl
  rw [hbs]
  have h2 := h1 pre ([0, 0, 0, b] ++ (t ++ post)) ⟨by
    intro c rest hc
    cases hc
    decide, by simp⟩
  have h3 := hu (pre ++ (linesBytes .binary false e ++ (countBytes 9 10 (BitVec.ofNat 32 10) ++ List.replicate 1 10))) (t ++ post)
  unfold loadCounted
  rw [Rd.bind_ok h2]
  dsimp only
  simp only [List.append_assoc, List.length_append] at h3 ⊢
  rw [Rd.bind_ok h3, hnat]
  exact ⟨_, rfl⟩

end Material

end Verif.Obj
