import Verif.Spec.World
import Verif.Lemmas.ArchiveSections
import Verif.Lemmas.VobTree

/-! # Saving and loading worlds -/

namespace Verif.World

open Ar VobTree
open Obj (Ctx Game)

/-! ## What is written -/

/-- What is written for the virtual objects. -/
def rootsOf (kids : Kids) : Forest → List Field
  | .nil => []
  | .cons a k r => fieldsOf kids (.cons a k .nil) 0 ++ rootsOf kids r

theorem rootFields_eq (kids : Kids) (f : Forest) : ∀ (l : List (Option Nat)) (fuel : Nat), f.On kids l → 2 * f.nodes.length + 1 < fuel →
    rootFields kids fuel l = .ok (rootsOf kids f) := by
  induction f with
  | nil => intro l fuel h _; cases h; rfl
  | cons a k r _ ihr =>
    intro l fuel h hf
    obtain ⟨m, rfl, hk, hm⟩ := h
    simp only [Forest.nodes, List.length_cons, List.length_append] at hf
    rw [rootFields, VobTree.save_eq kids a k hk fuel (by omega)]
    simp only [bind, Except.bind]
    rw [ihr m fuel hm (by omega)]
    rfl

/-- The sections that are written. -/
def secsOf (c : Ctx) (kids : Kids) (f : Forest) (w : World) : List Section :=
  (b!"VobTree", .val b!"childs0" (.int (BitVec.ofNat 32 w.vobs.length)) :: rootsOf kids f) ::
    ((if c.save then optional b!"CutscenePlayer" w.player ++ optional b!"SkyCtrl" w.sky else []) ++
      [(b!"WayNet", [.ptr nullClass w.wayNet]), (b!"EndMarker", [])])

theorem sections_eq {c : Ctx} {kids : Kids} {f : Forest} {w : World} {fuel : Nat} (h : f.On kids w.vobs)
    (hf : 2 * f.nodes.length + 1 < fuel) : w.sections c kids fuel = .ok (secsOf c kids f w) := by
  unfold sections
  rw [rootFields_eq kids f _ fuel h hf]
  rfl

/-! ## The sections -/

variable {σ : Type}

/-- The copies of an object have a type. -/
def Typed (gf : GRd) (φ : Nat → Nat) (t : ObjectType) (p : Option Nat) : Prop :=
  ∀ a, p = some a → (gf.heap[φ a]?).map (·.1) = some t

theorem readObjectOf_ok {r : Reader σ} {S : Schema} {t : ObjectType} {pf : Nat} {s s' : σ} {g g' gf : GRd} {φ : Nat → Nat}
    {p : Option Nat} (hg : g.Inv) (hgf : Grow g' gf) (ht : Typed gf φ t p)
    (h : readPtr r S pf s g = .ok (p.map φ, s', g')) : readObjectOf r S t pf s g = .ok (p.map φ, s', g') := by
  unfold readObjectOf
  rw [h]
  simp only [bind, Except.bind]
  cases p with
  | none => rfl
  | some a =>
    have hlt := (readPtr_grow r S pf _ _ _ _ _ hg h).2 (φ a) rfl
    have hh : g'.heap[φ a]? = gf.heap[φ a]? := by
      obtain ⟨u, hu⟩ := hgf.pre
      rw [← hu, List.getElem?_append_left hlt]
    simp only [Option.map_some, hh]
    rw [if_pos (ht a rfl)]
    rfl

theorem readAs_one {r : Reader σ} {ptr : σ → GRd → Except Fail (Option Nat × σ × GRd)} {n : Bytes} {p : Option Nat} {s s' : σ}
    {g g' : GRd} {φ : Nat → Nat}
    (h : readAs r ptr ([Field.ptr n p].map Field.want) s g = .ok ([Field.ptr n p].map (Field.got φ), s', g')) :
    ptr s g = .ok (p.map φ, s', g') := by
  obtain ⟨q, s1, g1, o, h1, h2, h3⟩ := readAs_ptr h
  cases h2
  simp only [List.map_cons, List.map_nil, Field.got, List.cons.injEq, Got.ptr.injEq, and_true] at h3
  rw [h1, h3]

theorem RunList.grow {r : Reader σ} {S : Schema} {φ : Nat → Nat} {fs : List Field} {s s' : σ} {g g' : GRd} (hg : g.Inv)
    (h : RunList r S φ fs s g s' g') : Grow g g' := by
  obtain ⟨N, hN⟩ := h
  exact readAs_grow (readPtr_grow r S N) _ _ _ _ _ _ hg (hN N (Nat.le_refl _))

theorem RunSecs.grow {r : Reader σ} {S : Schema} {k : Bytes} {φ : Nat → Nat} (secs : List Section) :
    ∀ (s s' : σ) (g g' : GRd), g.Inv → RunSecs r S k φ secs s g s' g' → Grow g g' := by
  induction secs with
  | nil => rintro s s' g g' hg ⟨rfl, rfl⟩; exact Grow.refl hg
  | cons sec secs ih =>
    obtain ⟨n, fs⟩ := sec
    rintro s s' g g' hg ⟨s1, s2, s3, g2, _, _, h3, _, h5⟩
    have h1 := RunList.grow hg h3
    exact h1.trans (ih _ _ _ _ h1.inv h5)

/-! ### The virtual objects -/

/-- Who gets which child. -/
def rootPushes (φ : Nat → Nat) : Forest → Pushes
  | .nil => []
  | .cons a k r => pushes φ (φ a) k ++ rootPushes φ r

theorem rootPushes_eq (φ : Nat → Nat) (f : Forest) (p n : Nat) (h : p ≠ n) :
    childrenOf (rootPushes φ f) n = childrenOf (pushes φ p f) n := by
  induction f with
  | nil => rfl
  | cons a k r _ ihr => simp only [rootPushes, pushes, childrenOf_append, childrenOf_cons, if_neg h, List.nil_append, ihr]

theorem exists_above (l : List Nat) : ∃ p, ∀ x ∈ l, x < p := by
  induction l with
  | nil => exact ⟨0, by simp⟩
  | cons a l ih =>
    obtain ⟨p, hp⟩ := ih
    refine ⟨a + p + 1, fun x hx => ?_⟩
    rcases List.mem_cons.1 hx with rfl | hx
    · omega
    · have := hp x hx
      omega

theorem rootPushes_copy {kids : Kids} {φ : Nat → Nat} {f : Forest} {l : List (Option Nat)} (h : f.On kids l)
    (hnd : (f.nodes.map φ).Nodup) : IsTreeCopy kids f.nodes φ (rootPushes φ f) := by
  constructor
  · intro a ha
    obtain ⟨p, hp⟩ : ∃ p, p ∉ f.nodes.map φ := by
      obtain ⟨p, hp⟩ := exists_above (f.nodes.map φ)
      exact ⟨p, fun hm => Nat.lt_irrefl _ (hp p hm)⟩
    rw [rootPushes_eq φ f p (φ a) (fun e => hp (e ▸ List.mem_map_of_mem ha))]
    exact pushes_node kids φ f p l h hnd hp a ha
  · intro n hn
    rw [rootPushes_eq φ f (n + 1) n (by omega)]
    refine pushes_none φ f _ _ (by omega) ?_
    intro hm
    obtain ⟨a, ha, e⟩ := List.mem_map.1 hm
    exact hn a ha e

theorem loadRoots_ok {r : Reader σ} {S : Schema} {fuel : Nat} {kids : Kids} {φ : Nat → Nat} {gf : GRd} (f : Forest) :
    ∀ (l : List (Option Nat)) (x : Load σ) (s' : σ) (g' : GRd), f.On kids l → 2 * f.nodes.length < fuel →
      (∀ a ∈ f.nodes, (kids a).length < 2 ^ 31) → x.g.Inv → VobsIn gf φ f.nodes → Grow g' gf →
      readAs r (readPtr r S fuel) ((rootsOf kids f).map Field.want) x.s x.g = .ok ((rootsOf kids f).map (Field.got φ), s', g') →
      loadRoots r S fuel l.length x = .ok { x with
        s := s', g := g', kids := x.kids ++ rootPushes φ f
        w := { x.w with vobs := x.w.vobs ++ l.map (Option.map φ) } } := by
  induction f with
  | nil =>
    intro l x s' g' h hf _ hg hv hgf hr
    cases h
    cases hr
    simp [loadRoots, rootPushes]
  | cons a k rest _ ihr =>
    intro l x s' g' h hf hfew hg hv hgf hr
    obtain ⟨m, rfl, hk, hm⟩ := h
    simp only [Forest.nodes, List.length_cons, List.length_append] at hf
    obtain ⟨fu, hfu⟩ : ∃ n, fuel = n + 1 := ⟨fuel - 1, by omega⟩
    simp only [rootsOf, List.map_append] at hr
    obtain ⟨o1, s1, g1, o2, c1, c2, c3, c4⟩ := readAs_append hr
    obtain ⟨rfl, rfl⟩ := List.append_inj c3 (by simp [c4])
    have hg1 := readAs_grow (readPtr_grow _ _ _) _ _ _ _ _ _ hg c1
    have hg2 := readAs_grow (readPtr_grow _ _ _) _ _ _ _ _ _ hg1.inv c2
    have hnodes : ∀ b, b = a ∨ b ∈ k.nodes ∨ b ∈ rest.nodes → b ∈ (Forest.cons a k rest).nodes := by
      intro b hb; simpa [Forest.nodes] using hb
    have c1' := c1
    simp only [fieldsOf, List.append_nil] at c1'
    have hp := parse_ok (k := k) (fuel := fu) (K := x.kids) (hfew a (hnodes _ (.inl rfl))) hg
      (fun b hb => hv b (hnodes _ (.inl (by simpa using hb)))) (hg2.trans hgf) (fun s g hg hr =>
        parseAll_ok k (kids a) _ fu (φ a) s s1 g g1 x.kids hk (by omega) (fun b hb => hfew b (hnodes _ (.inr (.inl hb)))) hg
          (fun b hb => hv b (hnodes _ (.inr (.inl hb)))) (hg2.trans hgf) hr) c1'
    rw [List.length_cons, loadRoots]
    rw [← hfu] at hp
    rw [hp]
    simp only [bind, Except.bind]
    rw [ihr m _ s' g' hm (by omega) (fun b hb => hfew b (hnodes _ (.inr (.inr hb)))) hg1.inv
      (fun b hb => hv b (hnodes _ (.inr (.inr hb)))) hgf c2]
    simp [rootPushes]

/-! ### All sections -/

theorem sec_step {r : RawReader σ} {S : Schema} {wide : Bool} {fuel m : Nat} {n k : Bytes} {x x' : Load σ} {s1 s3 : σ}
    (h1 : r.objEnd x.s = .ok (false, x.s)) (h2 : r.objBegin x.s = .ok (some ⟨n, k, 0, 0⟩, s1)) (hn : n ≠ b!"EndMarker")
    (h3 : loadSection r S wide fuel n { x with s := s1 } = .ok x') (h4 : r.objEnd x'.s = .ok (true, s3)) :
    loadSections r S wide fuel (m + 1) x = loadSections r S wide fuel m { x' with s := s3 } := by
  rw [loadSections]
  simp only [bind, Except.bind, h1, h2, h3, Bool.false_eq_true, if_false, if_neg hn]
  rw [endOrSkip_true h4]

theorem sec_end {r : RawReader σ} {S : Schema} {wide : Bool} {fuel m : Nat} {k : Bytes} {x : Load σ} {s1 s3 : σ}
    (h1 : r.objEnd x.s = .ok (false, x.s)) (h2 : r.objBegin x.s = .ok (some ⟨b!"EndMarker", k, 0, 0⟩, s1))
    (h4 : r.objEnd s1 = .ok (true, s3)) :
    loadSections r S wide fuel (m + 1) x = .ok { x with s := s3 } := by
  rw [loadSections]
  simp only [bind, Except.bind, h1, h2, Bool.false_eq_true, if_false, if_true, h4, pure, Except.pure]

/-- What the sections leave in a world. -/
def loadedSecs (c : Ctx) (φ : Nat → Nat) (w w' : World) : World :=
  { w' with
    vobs := w'.vobs ++ w.vobs.map (Option.map φ)
    player := if c.save then (w.player.map φ).or w'.player else w'.player
    sky := if c.save then (w.sky.map φ).or w'.sky else w'.sky
    wayNet := w.wayNet.map φ }

theorem opt_step {r : RawReader σ} {S : Schema} {wide : Bool} {k : Bytes} {φ : Nat → Nat} {gf : GRd} {p : Option Nat} {n : Bytes}
    {t : ObjectType} {set : Option Nat → World → World} (hn : n ≠ b!"EndMarker")
    (hsec : ∀ fuel (x : Load σ), loadSection r S wide fuel n x = (do
      let (p, s, g) ← readObjectOf r.toReader S t fuel x.s x.g
      return { x with s, g, w := set p x.w }))
    (ht : Typed gf φ t p) (rest : List Section) {x : Load σ} {s' : σ} {g' : GRd} (hg : x.g.Inv) (hgf : Grow g' gf)
    (hrun : RunSecs r.toReader S k φ (optional n p ++ rest) x.s x.g s' g') :
    ∃ N s1 g1, RunSecs r.toReader S k φ rest s1 g1 s' g' ∧ g1.Inv ∧ ∀ fuel ≥ N, ∀ m, loadSections r S wide fuel (m + 1) x =
        loadSections r S wide fuel (if p = none then m + 1 else m) { x with s := s1, g := g1, w := if p = none then x.w else set (p.map φ) x.w } := by
  cases p with
  | none => exact ⟨0, x.s, x.g, hrun, hg, fun _ _ m => by simp⟩
  | some a =>
    obtain ⟨s1, s2, s3, g2, h1, h2, ⟨N, hN⟩, h4, h5⟩ := hrun
    have hg2 := RunList.grow hg ⟨N, hN⟩
    have hgf2 := (RunSecs.grow rest _ _ _ _ hg2.inv h5).trans hgf
    refine ⟨N, s3, g2, h5, hg2.inv, fun fuel hf m => ?_⟩
    rw [sec_step (x' := { x with s := s2, g := g2, w := set (some (φ a)) x.w }) h1 h2 hn ?_ h4]
    · simp
    · rw [hsec, readObjectOf_ok hg hgf2 ht (readAs_one (hN fuel hf))]
      rfl

theorem sections_load {r : RawReader σ} {S : Schema} {wide : Bool} {k : Bytes} {φ : Nat → Nat} {gf : GRd} {c : Ctx} {kids : Kids}
    {f : Forest} {w : World} {H : GHeap} (hw : w.Ok H kids f) {x : Load σ} {s' : σ} {g' : GRd} (hg : x.g.Inv) (hgf : Grow g' gf)
    (hv : VobsIn gf φ f.nodes) (hnet : Typed gf φ .zCWayNet w.wayNet) (hpl : c.save = true → Typed gf φ .oCCSPlayer w.player)
    (hsky : c.save = true → Typed gf φ .zCSkyControler_Outdoor w.sky)
    (hrun : RunSecs r.toReader S k φ (secsOf c kids f w) x.s x.g s' g') :
    ∃ N, ∀ fuel ≥ N, ∀ n ≥ 5, loadSections r S wide fuel n x =
      .ok { x with s := s', g := g', kids := x.kids ++ rootPushes φ f, w := loadedSecs c φ w x.w } := by
  obtain ⟨s1, s2, s3, g2, h1, h2, ⟨N1, hN1⟩, h4, h5⟩ := hrun
  have hg2 := RunList.grow hg ⟨N1, hN1⟩
  have hgf2 := (RunSecs.grow _ _ _ _ _ hg2.inv h5).trans hgf
  have hvt : ∀ fuel ≥ N1 + 2 * f.nodes.length + 1, loadSection r S wide fuel b!"VobTree" { x with s := s1 } =
      .ok { x with s := s2, g := g2, kids := x.kids ++ rootPushes φ f, w := { x.w with vobs := x.w.vobs ++ w.vobs.map (Option.map φ) } } := by
    intro fuel hfu
    have hr := hN1 fuel (by omega)
    simp only [List.map_cons, Field.want, Field.got, Val.kind] at hr
    obtain ⟨v, s0, o, a1, a2, a3⟩ := readAs_val hr
    simp only [List.cons.injEq, Got.val.injEq] at a3
    obtain ⟨rfl, rfl⟩ := a3
    have hlen : (BitVec.ofNat 32 w.vobs.length).toNat = w.vobs.length := by
      have := hw.fewVobs
      simp; omega
    have hpos : ¬ (BitVec.ofNat 32 w.vobs.length).toInt < 0 := by
      have := hw.fewVobs
      rw [BitVec.toInt_eq_toNat_cond, hlen, if_pos (by omega)]
      omega
    have := loadRoots_ok (x := { x with s := s0 }) (kids := kids) f w.vobs s2 g2 hw.trees (by omega) hw.few hg hv hgf2 a2
    unfold loadSection
    rw [if_neg (by decide), if_pos rfl]
    simp only [bind, Except.bind, readInt_ok a1, if_neg hpos, hlen]
    exact this
  -- the tail: way net and end marker
  have htail : ∀ (y : Load σ) (s' : σ) (g' : GRd), y.g.Inv → Grow g' gf →
      RunSecs r.toReader S k φ [(b!"WayNet", [.ptr nullClass w.wayNet]), (b!"EndMarker", [])] y.s y.g s' g' →
      ∃ N, ∀ fuel ≥ N, ∀ m ≥ 2, loadSections r S wide fuel m y =
        .ok { y with s := s', g := g', w := { y.w with wayNet := w.wayNet.map φ } } := by
    rintro y s' g' hgy hgf ⟨t1, t2, t3, u2, b1, b2, ⟨N, hN⟩, b4, v1, v2, v3, q2, e1, e2, ⟨N', hN'⟩, e4, rfl, rfl⟩
    have := hN' N' (Nat.le_refl _)
    cases this
    refine ⟨N, fun fuel hf m hm => ?_⟩
    obtain ⟨m, rfl⟩ : ∃ k, m = k + 2 := ⟨m - 2, by omega⟩
    rw [sec_step (x' := { y with s := t2, g := _, w := { y.w with wayNet := w.wayNet.map φ } }) b1 b2 (by decide) ?_ b4]
    · rw [sec_end (s1 := v1) e1 e2 e4]
    · unfold loadSection
      rw [if_neg (by decide), if_neg (by decide), if_pos rfl, readObjectOf_ok hgy hgf hnet (readAs_one (hN fuel hf))]
      rfl
  cases hsave : c.save with
  | false =>
    rw [hsave] at h5
    simp only [Bool.false_eq_true, if_false, List.nil_append] at h5
    obtain ⟨N2, hN2⟩ := htail { x with s := s3, g := g2, kids := x.kids ++ rootPushes φ f, w := { x.w with vobs := x.w.vobs ++ w.vobs.map (Option.map φ) } } s' g' hg2.inv hgf h5
    refine ⟨N1 + N2 + 2 * f.nodes.length + 1, fun fuel hf n hn => ?_⟩
    obtain ⟨m, rfl⟩ : ∃ k, n = k + 1 := ⟨n - 1, by omega⟩
    rw [sec_step h1 h2 (by decide) (hvt fuel (by omega)) h4]
    rw [hN2 fuel (by omega) m (by omega)]
    simp [loadedSecs, hsave]
  | true =>
    rw [hsave] at h5
    simp only [if_true, List.append_assoc] at h5
    obtain ⟨N2, s4, g4, r4, i4, l4⟩ := opt_step (x := { x with s := s3, g := g2, kids := x.kids ++ rootPushes φ f, w := { x.w with vobs := x.w.vobs ++ w.vobs.map (Option.map φ) } }) (wide := wide) (n := b!"CutscenePlayer") (gf := gf)
      (t := .oCCSPlayer) (set := fun p w => { w with player := p }) (by decide)
      (by
        intro fuel x
        unfold loadSection
        rw [if_neg (by decide), if_neg (by decide), if_neg (by decide), if_pos rfl]) (hpl hsave) _ hg2.inv hgf h5
    obtain ⟨N3, s5, g5, r5, i5, l5⟩ := opt_step (x := { x with s := s4, g := g4, kids := x.kids ++ rootPushes φ f, w := if w.player = none then { x.w with vobs := x.w.vobs ++ w.vobs.map (Option.map φ) } else
          { x.w with vobs := x.w.vobs ++ w.vobs.map (Option.map φ), player := w.player.map φ } })
      (wide := wide) (n := b!"SkyCtrl") (gf := gf)
      (t := .zCSkyControler_Outdoor) (set := fun p w => { w with sky := p }) (by decide)
      (by
        intro fuel x
        unfold loadSection
        rw [if_neg (by decide), if_neg (by decide), if_neg (by decide), if_neg (by decide), if_pos rfl]) (hsky hsave) _ i4 hgf r4
    obtain ⟨N4, hN4⟩ := htail { x with s := s5, g := g5, kids := x.kids ++ rootPushes φ f, w := if w.sky = none then
          (if w.player = none then { x.w with vobs := x.w.vobs ++ w.vobs.map (Option.map φ) } else
          { x.w with vobs := x.w.vobs ++ w.vobs.map (Option.map φ), player := w.player.map φ }) else
          { (if w.player = none then { x.w with vobs := x.w.vobs ++ w.vobs.map (Option.map φ) } else
          { x.w with vobs := x.w.vobs ++ w.vobs.map (Option.map φ), player := w.player.map φ }) with sky := w.sky.map φ } } s' g' i5 hgf r5
    refine ⟨N1 + N2 + N3 + N4 + 2 * f.nodes.length + 1, fun fuel hf n hn => ?_⟩
    obtain ⟨m, rfl⟩ : ∃ k, n = k + 5 := ⟨n - 5, by omega⟩
    rw [sec_step h1 h2 (by decide) (hvt fuel (by omega)) h4]
    dsimp only at l4 l5
    rw [l4 fuel (by omega) (m + 3)]
    have e3 : ∃ q, (if w.player = none then m + 3 + 1 else m + 3) = q + 1 ∧ q ≥ 2 := by
      split
      · exact ⟨m + 3, rfl, by omega⟩
      · exact ⟨m + 2, rfl, by omega⟩
    obtain ⟨q, e3, hq⟩ := e3
    rw [e3, l5 fuel (by omega) q, hN4 fuel (by omega) _ (by split <;> omega)]
    simp only [loadedSecs, hsave, if_true]
    cases w.player <;> cases w.sky <;> simp

/-! ### Behind the sections -/

theorem readVec3_ok {r : Reader σ} {s s' : σ} {v : Vec3} (h : r.val .vec3 s = .ok (.vec3 v, s')) : readVec3 r s = .ok (v, s') := by
  unfold readVec3
  rw [h]
  rfl

theorem readFloat_ok {r : Reader σ} {s s' : σ} {v : F32} (h : r.val .float s = .ok (.float v, s')) : readFloat r s = .ok (v, s') := by
  unfold readFloat
  rw [h]
  rfl

theorem readBool_ok {r : Reader σ} {s s' : σ} {v : Bool} (h : r.val .bool s = .ok (.bool v, s')) : readBool r s = .ok (v, s') := by
  unfold readBool
  rw [h]
  rfl

theorem loadNpcs_ok {r : Reader σ} {S : Schema} {fuel : Nat} {φ : Nat → Nat} {gf : GRd} (l : List (Option Nat)) :
    ∀ (s s' : σ) (g g' : GRd), g.Inv → (∀ p ∈ l, Typed gf φ .oCNpc p) → Grow g' gf →
      readAs r (readPtr r S fuel) (l.map fun _ => .ptr) s g = .ok (l.map fun p => .ptr (p.map φ), s', g') →
      loadNpcs r S fuel l.length s g = .ok (l.map (Option.map φ), s', g') := by
  induction l with
  | nil => intro s s' g g' _ _ _ h; cases h; rfl
  | cons p l ih =>
    intro s s' g g' hg ht hgf h
    simp only [List.map_cons] at h
    obtain ⟨q, s1, g1, o, h1, h2, h3⟩ := readAs_ptr h
    simp only [List.cons.injEq, Got.ptr.injEq] at h3
    obtain ⟨rfl, rfl⟩ := h3
    have hg1 := (readPtr_grow _ _ _ _ _ _ _ _ hg h1).1
    have hg2 := readAs_grow (readPtr_grow _ _ _) _ _ _ _ _ _ hg1.inv h2
    have e := readObjectOf_ok hg (hg2.trans hgf) (ht p List.mem_cons_self) h1
    simp only [List.length_cons, loadNpcs, e, bind, Except.bind, ih s1 s' g1 g' hg1.inv (fun p hp => ht p (List.mem_cons_of_mem _ hp)) hgf h2]
    rfl

theorem loadSpawns_ok {r : Reader σ} {S : Schema} {fuel : Nat} {φ : Nat → Nat} {gf : GRd} (l : List Spawn) :
    ∀ (s s' : σ) (g g' : GRd), g.Inv → (∀ p ∈ l, Typed gf φ .oCNpc p.npc) → Grow g' gf →
      readAs r (readPtr r S fuel) ((l.flatMap Spawn.fields).map Field.want) s g =
        .ok ((l.flatMap Spawn.fields).map (Field.got φ), s', g') →
      loadSpawns r S fuel l.length s g = .ok (l.map fun s => { s with npc := s.npc.map φ }, s', g') := by
  induction l with
  | nil => intro s s' g g' _ _ _ h; cases h; rfl
  | cons p l ih =>
    intro s s' g g' hg ht hgf h
    simp only [List.flatMap_cons, Spawn.fields, List.cons_append, List.nil_append, List.map_cons, Field.want, Field.got, Val.kind] at h
    obtain ⟨q, s1, g1, o, h1, h2, h3⟩ := readAs_ptr h
    obtain ⟨v2, s2, o2, a1, a2, rfl⟩ := readAs_val h2
    obtain ⟨v3, s3, o3, b1, b2, rfl⟩ := readAs_val a2
    simp only [List.cons.injEq, Got.ptr.injEq, Got.val.injEq] at h3
    obtain ⟨rfl, rfl, rfl, rfl⟩ := h3
    have hg1 := (readPtr_grow _ _ _ _ _ _ _ _ hg h1).1
    have hg2 := readAs_grow (readPtr_grow _ _ _) _ _ _ _ _ _ hg1.inv b2
    have e := readObjectOf_ok hg (hg2.trans hgf) (ht p List.mem_cons_self) h1
    simp only [List.length_cons, loadSpawns, e, bind, Except.bind, readVec3_ok a1, readFloat_ok b1,
      ih s3 s' g1 g' hg1.inv (fun p hp => ht p (List.mem_cons_of_mem _ hp)) hgf b2]
    rfl

/-- What is read behind the sections. -/
def loadedTail (φ : Nat → Nat) (w w' : World) : World :=
  { w' with
    npcs := w.npcs.map (Option.map φ)
    spawns := w.spawns.map fun s => { s with npc := s.npc.map φ }
    spawnEnabled := w.spawnEnabled }

theorem loadTail_ok {r : Reader σ} {S : Schema} {fuel : Nat} {φ : Nat → Nat} {gf : GRd} {w : World} {x : Load σ} {s' : σ} {g' : GRd}
    (h1 : w.npcs.length < 2 ^ 31) (h2 : w.spawns.length < 2 ^ 31) (hg : x.g.Inv) (hn : ∀ p ∈ w.npcs, Typed gf φ .oCNpc p)
    (hs : ∀ p ∈ w.spawns, Typed gf φ .oCNpc p.npc) (hgf : Grow g' gf)
    (h : readAs r (readPtr r S fuel) (w.npcFields.map Field.want) x.s x.g = .ok (w.npcFields.map (Field.got φ), s', g')) :
    loadTail r S fuel x = .ok { x with s := s', g := g', w := loadedTail φ w x.w } := by
  simp only [npcFields, List.map_cons, List.map_append, List.map_nil, Field.want, Field.got, Val.kind,
    numberedPtrs_map Field.want (fun _ => Want.ptr) _ _ (fun _ _ => rfl),
    numberedPtrs_map (Field.got φ) (fun p => Got.ptr (p.map φ)) _ _ (fun _ _ => rfl)] at h
  obtain ⟨v1, s1, o1, a1, a2, a3⟩ := readAs_val h
  obtain ⟨o2, s2, g2, o3, b1, b2, rfl, b4⟩ := readAs_append a2
  obtain ⟨v3, s3, o4, c1, c2, rfl⟩ := readAs_val b2
  obtain ⟨o5, s4, g4, o6, d1, d2, rfl, d4⟩ := readAs_append c2
  obtain ⟨v5, s5, o7, e1, e2, rfl⟩ := readAs_val d2
  simp only [List.cons.injEq, Got.val.injEq] at a3
  obtain ⟨rfl, a3⟩ := a3
  obtain ⟨rfl, a4⟩ := List.append_inj a3 (by simp [b4])
  simp only [List.cons.injEq, Got.val.injEq] at a4
  obtain ⟨rfl, a4⟩ := a4
  obtain ⟨rfl, a5⟩ := List.append_inj a4 (by simp [d4])
  simp only [List.cons.injEq, Got.val.injEq] at a5
  obtain ⟨rfl, rfl⟩ := a5
  cases e2
  have hg2 := readAs_grow (readPtr_grow _ _ _) _ _ _ _ _ _ hg b1
  have hg4 := readAs_grow (readPtr_grow _ _ _) _ _ _ _ _ _ hg2.inv d1
  have en := loadNpcs_ok (gf := gf) w.npcs s1 s2 x.g g2 hg hn (hg4.trans hgf) b1
  have es := loadSpawns_ok (gf := gf) w.spawns s3 s4 g2 _ hg2.inv hs hgf d1
  simp only [loadTail, readInt_ok a1, reserve_ok _ h1, en, readInt_ok c1, reserve_ok _ h2, es, readBool_ok e1, bind, Except.bind,
    pure, Except.pure, loadedTail]

/-! ## The whole world -/

/-- The fields behind the sections, without the flags. -/
def tailOf (c : Ctx) (w : World) : List Field := if c.save then w.npcFields else []

theorem sec_names {c : Ctx} {kids : Kids} {f : Forest} {w : World} {s : Section} (h : s ∈ secsOf c kids f w) :
    s.1 ∈ [b!"VobTree", b!"CutscenePlayer", b!"SkyCtrl", b!"WayNet", b!"EndMarker"] := by
  simp only [secsOf, List.mem_cons, List.mem_append, List.not_mem_nil, or_false] at h
  rcases h with rfl | h | rfl | rfl
  · dsimp only; decide
  · split at h
    · rcases List.mem_append.1 h with h | h
      · cases hp : w.player with
        | none => rw [hp] at h; cases h
        | some a => rw [hp] at h; rw [List.mem_singleton.1 h]; dsimp only; decide
      · cases hp : w.sky with
        | none => rw [hp] at h; cases h
        | some a => rw [hp] at h; rw [List.mem_singleton.1 h]; dsimp only; decide
    · cases h
  · dsimp only; decide
  · dsimp only; decide

theorem mem_rootsOf {kids : Kids} (f : Forest) {x : Field} (h : x ∈ rootsOf kids f) :
    (∃ a ∈ f.nodes, x = .ptr nullClass (some a)) ∨
      ∃ a ∈ f.nodes, ∃ k, x = .val (b!"childs" ++ dec (k % 2 ^ 32)) (.int (BitVec.ofNat 32 (kids a).length)) := by
  induction f with
  | nil => cases h
  | cons a k r _ ihr =>
    rcases List.mem_append.1 h with h | h
    · rcases mem_fieldsOf _ _ h with ⟨b, hb, e⟩ | ⟨b, hb, e⟩
      · exact .inl ⟨b, by simp [Forest.nodes] at hb ⊢; tauto, e⟩
      · exact .inr ⟨b, by simp [Forest.nodes] at hb ⊢; tauto, e⟩
    · rcases ihr h with ⟨b, hb, e⟩ | ⟨b, hb, e⟩
      · exact .inl ⟨b, by simp [Forest.nodes, hb], e⟩
      · exact .inr ⟨b, by simp [Forest.nodes, hb], e⟩

theorem rootsOf_mem {kids : Kids} (f : Forest) (a : Nat) (h : a ∈ f.nodes) : Field.ptr nullClass (some a) ∈ rootsOf kids f := by
  induction f with
  | nil => cases h
  | cons b k r _ ihr =>
    simp only [Forest.nodes, List.mem_cons, List.mem_append] at h
    rcases h with rfl | h | h
    · exact List.mem_append_left _ (fieldsOf_mem _ 0 a (by simp [Forest.nodes]))
    · exact List.mem_append_left _ (fieldsOf_mem _ 0 a (by simp [Forest.nodes, h]))
    · exact List.mem_append_right _ (ihr h)

theorem mem_optional {x : Field} {n : Bytes} {p : Option Nat} : x ∈ allFields (optional n p) ↔ ∃ a, p = some a ∧ x = .ptr nullClass (some a) := by
  cases p <;> simp [optional, allFields]

/-- The names of the numbers. -/
def IntName (n : Bytes) : Prop := n = b!"npcCount" ∨ n = b!"NoOfEntries" ∨ ∃ i, n = b!"childs" ++ dec (i % 2 ^ 32)

theorem mem_all {c : Ctx} {kids : Kids} {f : Forest} {w : World} {H : GHeap} (hw : w.Ok H kids f) {x : Field}
    (h : x ∈ allFields (secsOf c kids f w) ++ tailOf c w) :
    (∃ n p, Plain n ∧ x = .ptr n p ∧ p ∈ (w.part c.save).pointers f.nodes) ∨
      (∃ n k, IntName n ∧ k < 2 ^ 31 ∧ x = .val n (.int (BitVec.ofNat 32 k))) ∨
      (∃ s ∈ w.spawns, x = .val b!"spawnPos" (.vec3 s.position) ∨ x = .val b!"timer" (.float s.timer)) ∨
      x = .val b!"spawningEnabled" (.bool w.spawnEnabled) := by
  have hnull : Plain nullClass := by decide
  have h0 : IntName b!"childs0" := .inr (.inr ⟨0, by decide⟩)
  simp only [secsOf, allFields, List.flatMap_cons, List.flatMap_append, List.flatMap_nil, List.mem_append, List.mem_cons,
    List.not_mem_nil, or_false, false_or] at h
  rcases h with ((rfl | h) | h | rfl) | h
  · exact .inr (.inl ⟨_, _, h0, hw.fewVobs, rfl⟩)
  · rcases mem_rootsOf f h with ⟨a, ha, rfl⟩ | ⟨a, ha, k, rfl⟩
    · exact .inl ⟨_, _, hnull, rfl, by simp [pointers, ha]⟩
    · exact .inr (.inl ⟨_, _, .inr (.inr ⟨k, rfl⟩), hw.few a ha, rfl⟩)
  · cases hs : c.save with
    | false => rw [hs] at h; simp at h
    | true =>
      rw [hs] at h
      simp only [if_true, List.flatMap_append, List.mem_append] at h
      rcases h with h | h
      · obtain ⟨a, ha, rfl⟩ := mem_optional.1 h
        exact .inl ⟨_, _, hnull, rfl, by simp [part, pointers, ha]⟩
      · obtain ⟨a, ha, rfl⟩ := mem_optional.1 h
        exact .inl ⟨_, _, hnull, rfl, by simp [part, pointers, ha]⟩
  · refine .inl ⟨_, _, hnull, rfl, ?_⟩
    cases c.save <;> simp [part, plain, pointers]
  · cases hs : c.save with
    | false => simp [tailOf, hs] at h
    | true =>
      simp only [tailOf, hs, if_true, npcFields, List.mem_cons, List.mem_append, List.not_mem_nil, or_false, List.mem_flatMap] at h
      rcases h with rfl | h | rfl | ⟨s, hs, h⟩ | rfl
      · exact .inr (.inl ⟨_, _, .inl rfl, hw.fewNpcs, rfl⟩)
      · obtain ⟨k, p, rfl, hp⟩ := mem_numberedPtrs h
        exact .inl ⟨_, _, plain_numbered _ (by decide) (by decide) k, rfl, by simp [part, pointers, hp]⟩
      · exact .inr (.inl ⟨_, _, .inr (.inl rfl), hw.fewSpawns, rfl⟩)
      · simp only [Spawn.fields, List.mem_cons, List.not_mem_nil, or_false] at h
        rcases h with rfl | h | h
        · exact .inl ⟨_, _, by decide, rfl, by simp only [part, pointers, if_true, List.mem_append, List.mem_map]; exact .inr ⟨s, hs, rfl⟩⟩
        · exact .inr (.inr (.inl ⟨s, hs, .inl h⟩))
        · exact .inr (.inr (.inl ⟨s, hs, .inr h⟩))
      · exact .inr (.inr (.inr rfl))

theorem numberedPtrs_mem (n : Bytes) (l : List (Option Nat)) (p : Option Nat) (h : p ∈ l) : ∃ m, Field.ptr m p ∈ numberedPtrs n l := by
  obtain ⟨i, hi, rfl⟩ := List.mem_iff_getElem.1 h
  refine ⟨n ++ dec (i % 2 ^ 32), List.mem_map.2 ⟨(l[i], i), ?_, rfl⟩⟩
  rw [List.mem_zipIdx_iff_getElem?]
  simp [hi]

theorem all_mem {c : Ctx} {kids : Kids} {f : Forest} {w : World} {a : Nat} (h : some a ∈ (w.part c.save).pointers f.nodes) :
    ∃ n, Field.ptr n (some a) ∈ allFields (secsOf c kids f w) ++ tailOf c w := by
  have hcommon : a ∈ f.nodes ∨ some a = w.wayNet → ∃ n, Field.ptr n (some a) ∈ allFields (secsOf c kids f w) ++ tailOf c w := by
    rintro (h | h)
    · exact ⟨nullClass, List.mem_append_left _ (by simp [secsOf, allFields, rootsOf_mem f a h])⟩
    · exact ⟨nullClass, List.mem_append_left _ (by simp [secsOf, allFields, ← h])⟩
  simp only [pointers, List.mem_append, List.mem_map, List.mem_cons, List.not_mem_nil, or_false] at h
  cases hs : c.save with
  | false =>
    simp only [hs, part, plain, List.not_mem_nil] at h
    apply hcommon
    simpa using h
  | true =>
    simp only [hs, part, if_true] at h
    rcases h with ((⟨b, hb, e⟩ | h | h | h) | h) | ⟨s, hs', h⟩
    · cases e; exact hcommon (.inl hb)
    · exact hcommon (.inr h)
    · refine ⟨nullClass, List.mem_append_left _ ?_⟩
      have : Field.ptr nullClass (some a) ∈ allFields (optional b!"CutscenePlayer" w.player) := mem_optional.2 ⟨a, h.symm, rfl⟩
      simp only [secsOf, hs, if_true, allFields, List.flatMap_cons, List.flatMap_append, List.mem_append] at this ⊢
      exact .inr (.inl (.inl this))
    · refine ⟨nullClass, List.mem_append_left _ ?_⟩
      have : Field.ptr nullClass (some a) ∈ allFields (optional b!"SkyCtrl" w.sky) := mem_optional.2 ⟨a, h.symm, rfl⟩
      simp only [secsOf, hs, if_true, allFields, List.flatMap_cons, List.flatMap_append, List.mem_append] at this ⊢
      exact .inr (.inl (.inr this))
    · obtain ⟨m, hm⟩ := numberedPtrs_mem b!"npc" w.npcs _ h
      exact ⟨m, List.mem_append_right _ (by simp [tailOf, hs, npcFields, hm])⟩
    · refine ⟨b!"npc", List.mem_append_right _ ?_⟩
      have : Field.ptr b!"npc" (some a) ∈ w.spawns.flatMap Spawn.fields :=
        List.mem_flatMap.2 ⟨s, hs', by simp [Spawn.fields, h]⟩
      simp [tailOf, hs, npcFields, this]

theorem pointers_ok {c : Ctx} {kids : Kids} {f : Forest} {w : World} {H : GHeap} (hw : w.Ok H kids f) {a : Nat}
    (h : some a ∈ (w.part c.save).pointers f.nodes) : (H a).isSome := by
  have hcommon : a ∈ f.nodes ∨ some a = w.wayNet → (H a).isSome := by
    rintro (h | h)
    · obtain ⟨o, ho, _⟩ := hw.vobs a h; rw [ho]; rfl
    · obtain ⟨o, ho, _⟩ := hw.wayNet a h.symm; rw [ho]; rfl
  simp only [pointers, List.mem_append, List.mem_map, List.mem_cons, List.not_mem_nil, or_false] at h
  cases hs : c.save with
  | false =>
    simp only [hs, part, plain, List.not_mem_nil] at h
    apply hcommon
    simpa using h
  | true =>
    simp only [hs, part, if_true] at h
    rcases h with ((⟨b, hb, e⟩ | h | h | h) | h) | ⟨s, hs', h⟩
    · cases e; exact hcommon (.inl hb)
    · exact hcommon (.inr h)
    · obtain ⟨o, ho, _⟩ := hw.player a h.symm; rw [ho]; rfl
    · obtain ⟨o, ho, _⟩ := hw.sky a h.symm; rw [ho]; rfl
    · obtain ⟨o, ho, _⟩ := hw.npcs _ h a rfl; rw [ho]; rfl
    · obtain ⟨o, ho, _⟩ := hw.spawns _ hs' a h; rw [ho]; rfl

theorem worldGraph {c : Ctx} {kids : Kids} {f : Forest} {w : World} {H : GHeap} (hw : w.Ok H kids f) {dom : List Nat} {S : Schema}
    {pv : Bytes → Val → Prop} {q : Bytes → Prop} (hg : GraphOk H [] dom S pv (fun n c _ _ => q n ∧ q c))
    (hcls : ∀ t c, tableFind classNamesTable t = some c → q c) (hq : ∀ n, Plain n → q n)
    (hi : ∀ n k, IntName n → k < 2 ^ 31 → pv n (.int (BitVec.ofNat 32 k)))
    (hsp : ∀ s ∈ w.spawns, pv b!"spawnPos" (.vec3 s.position) ∧ pv b!"timer" (.float s.timer))
    (hb : pv b!"spawningEnabled" (.bool w.spawnEnabled)) :
    GraphOk H (allFields (secsOf c kids f w) ++ tailOf c w) dom S pv (fun n c _ _ => q n ∧ q c) := by
  refine ⟨hg.finite, hg.small, ?_, hg.closed, hg.types, hg.loads, ?_, hg.fieldsOk⟩
  · intro n a ha
    rcases mem_all hw ha with ⟨n', p, _, e, hp⟩ | ⟨_, _, _, _, e⟩ | ⟨_, _, e | e⟩ | e
    · cases e
      exact pointers_ok hw hp
    all_goals cases e
  · intro x hx
    rcases mem_all hw hx with ⟨n, p, hn, rfl, hp⟩ | ⟨n, k, hn, hk, rfl⟩ | ⟨s, hs, rfl | rfl⟩ | rfl
    · intro c _ _ hc
      refine ⟨hq n hn, ?_⟩
      rcases hc with rfl | rfl | ⟨t, ht⟩
      · exact hq _ (by decide)
      · exact hq _ (by decide)
      · exact hcls t c ht
    · exact hi n k hn hk
    · exact (hsp s hs).1
    · exact (hsp s hs).2
    · exact hb

theorem isCopy_congr {H : GHeap} {r1 r2 : List Field} {heap : List (ObjectType × List Got)} {φ : Nat → Nat}
    (h1 : ∀ n a, Field.ptr n (some a) ∈ r1 → ∃ m, Field.ptr m (some a) ∈ r2)
    (h2 : ∀ n a, Field.ptr n (some a) ∈ r2 → ∃ m, Field.ptr m (some a) ∈ r1) (h : Ar.IsCopy H r1 heap φ) : Ar.IsCopy H r2 heap φ := by
  have e : ∀ r1 r2 : List Field, (∀ n a, Field.ptr n (some a) ∈ r1 → ∃ m, Field.ptr m (some a) ∈ r2) → ∀ a, Reach H r1 a → Reach H r2 a := by
    intro r1 r2 h a ha
    induction ha with
    | root hm => obtain ⟨m, hm⟩ := h _ _ hm; exact .root hm
    | step _ a1 a2 ih => exact .step ih a1 a2
  refine ⟨fun a ha => h.copy a (e _ _ h2 a ha), fun a b ha hb => h.inj a b (e _ _ h2 a ha) (e _ _ h2 b hb), ?_⟩
  intro n hn
  obtain ⟨a, ha, e'⟩ := h.onto n hn
  exact ⟨a, e _ _ h1 a ha, e'⟩

theorem world_objects {c : Ctx} {kids : Kids} {f : Forest} {w : World} {H : GHeap} (hw : w.Ok H kids f)
    {heap : List (ObjectType × List Got)} {φ : Nat → Nat} (h : Ar.IsCopy H (allFields (secsOf c kids f w) ++ tailOf c w) heap φ) :
    Ar.IsCopy H (((w.part c.save).pointers f.nodes).map (Field.ptr [])) heap φ := by
  refine isCopy_congr ?_ ?_ h
  · intro n a ha
    rcases mem_all hw ha with ⟨n', p, _, e, hp⟩ | ⟨_, _, _, _, e⟩ | ⟨_, _, e | e⟩ | e
    · cases e
      exact ⟨[], List.mem_map_of_mem hp⟩
    all_goals cases e
  · intro n a ha
    obtain ⟨p, hp, e⟩ := List.mem_map.1 ha
    cases e
    exact all_mem hp

/-- Reading a world that was written to a document. -/
theorem world_read {r : RawReader σ} {S : Schema} {wide : Bool} {k : Bytes} {φ : Nat → Nat} {c : Ctx} {kids : Kids}
    {f : Forest} {w : World} {H : GHeap} (hw : w.Ok H kids f) {s s1 s2 : σ} {g1 g2 : GRd} (level : Level)
    (h1 : RunSecs r.toReader S k φ (secsOf c kids f w) s ⟨[], []⟩ s1 g1) (h2 : RunList r.toReader S φ (tailOf c w) s1 g1 s2 g2)
    (hc : Ar.IsCopy H (allFields (secsOf c kids f w) ++ tailOf c w) g2.heap φ) :
    ∃ N w', (∀ fuel ≥ N, load r S { c with game := .g1 } wide fuel ⟨s, ⟨[], []⟩, [], {}, level⟩ =
        .ok ⟨s2, g2, rootPushes φ f, w', level⟩) ∧ w'.spawnFlags = 0 ∧
      IsCopy H kids f.nodes φ (w.part c.save) w' g2.heap (rootPushes φ f) ∧
      (c.save = false → ∀ fuel ≥ N, ∀ m ≥ 5, loadSections r S wide fuel m ⟨s, ⟨[], []⟩, [], {}, level⟩ =
        .ok ⟨s2, g2, rootPushes φ f, w', level⟩) := by
  have i1 := RunSecs.grow _ _ _ _ _ GRd.Inv.new h1
  have i2 := RunList.grow i1.inv h2
  have hobj := world_objects hw hc
  have htyp : ∀ p t, p ∈ (w.part c.save).pointers f.nodes → PointsTo H t p → Typed g2 φ t p := by
    rintro p t hp ht a rfl
    obtain ⟨o, ho, hto⟩ := ht a rfl
    obtain ⟨o', ho', hh⟩ := hobj.copy a (.root (n := []) (List.mem_map_of_mem hp))
    rw [ho] at ho'
    cases ho'
    rw [hh]
    simpa using hto
  have hreach : ∀ a ∈ f.nodes, Reach H (((w.part c.save).pointers f.nodes).map (Field.ptr [])) a := by
    intro a ha
    exact .root (n := []) (List.mem_map_of_mem (by simp [pointers, ha]))
  have hv : VobsIn g2 φ f.nodes := by
    intro a ha
    obtain ⟨o, ho, hv⟩ := hw.vobs a ha
    obtain ⟨o', ho', hh⟩ := hobj.copy a (hreach a ha)
    rw [ho] at ho'
    cases ho'
    rw [hh]
    simpa using hv
  have hnd : (f.nodes.map φ).Nodup := by
    refine List.pairwise_map.2 (hw.nodup.imp_of_mem ?_)
    intro a b ha hb hne e
    exact hne (hobj.inj a b (hreach a ha) (hreach b hb) e)
  have htree := rootPushes_copy hw.trees hnd
  obtain ⟨N1, hN1⟩ := sections_load (wide := wide) (x := ⟨s, ⟨[], []⟩, [], {}, level⟩) hw GRd.Inv.new i2 hv
    (htyp _ _ (by cases c.save <;> simp [part, plain, pointers]) hw.wayNet)
    (fun hs => htyp _ _ (by simp [hs, part, pointers]) hw.player)
    (fun hs => htyp _ _ (by simp [hs, part, pointers]) hw.sky) h1
  obtain ⟨N2, hN2⟩ := h2
  cases hs : c.save with
  | false =>
    simp only [tailOf, hs, Bool.false_eq_true, if_false] at hN2
    cases hN2 N2 (Nat.le_refl _)
    refine ⟨N1 + N2 + 5, loadedSecs c φ w {}, fun fuel hf => ?_, rfl, ?_, fun _ fuel hf m hm => ?_⟩
    · simp only [load, hN1 fuel (by omega) fuel (by omega), bind, Except.bind, hs, Bool.false_eq_true, if_false, pure, Except.pure,
        List.nil_append]
    · refine ⟨?_, ?_, ?_, ?_, ?_, ?_, ?_, htree, by rw [← hs]; exact hobj⟩ <;> simp [loadedSecs, hs, part, plain]
    · simp only [hN1 fuel (by omega) m hm, List.nil_append]
  | true =>
    simp only [tailOf, hs, if_true] at hN2
    refine ⟨N1 + N2 + 5, loadedTail φ w (loadedSecs c φ w {}), fun fuel hf => ?_, rfl, ?_, fun h => by cases h⟩
    · have := loadTail_ok (x := ⟨s1, g1, rootPushes φ f, loadedSecs c φ w {}, level⟩) (gf := g2) hw.fewNpcs hw.fewSpawns i1.inv
        (fun p hp => htyp _ _ (by simp [hs, part, pointers, hp]) (hw.npcs p hp))
        (fun p hp => htyp _ _ (by
          simp only [hs, part, pointers, if_true, List.mem_append, List.mem_map]; exact .inr ⟨p, hp, rfl⟩) (hw.spawns p hp))
        (Grow.refl i2.inv) (hN2 fuel (by omega))
      simp only [load, hN1 fuel (by omega) fuel (by omega), bind, Except.bind, hs, if_true, List.nil_append, this]
      rfl
    · refine ⟨?_, ?_, ?_, ?_, ?_, ?_, ?_, htree, by rw [← hs]; exact hobj⟩ <;> simp [loadedSecs, loadedTail, hs, part]

/-! ## Documents -/

/-- The flags of Gothic 2. -/
def flagDoc (c : Ctx) (w : World) : Doc :=
  if c.save = true ∧ c.g2 = true then .val b!"spawnFlags" (.bool (w.spawnFlags != 0)) .nil else .nil

theorem writeFields_snoc (ptr : Bytes → Option Nat → GWr → Except Fail (List Call × GWr)) (n : Bytes) (v : Val) (fs : List Field) :
    ∀ g cs g', writeFields ptr fs g = .ok (cs, g') → writeFields ptr (fs ++ [.val n v]) g = .ok (cs ++ [.val n v], g') := by
  induction fs with
  | nil => intro g cs g' h; cases h; rfl
  | cons x fs ih =>
    intro g cs g' h
    cases x with
    | val m u =>
      simp only [writeFields] at h
      cases hf : writeFields ptr fs g with
      | error e => rw [hf] at h; cases h
      | ok o =>
        obtain ⟨c1, g1⟩ := o
        rw [hf] at h
        cases h
        simp only [List.cons_append, writeFields, ih _ _ _ hf]
        rfl
    | ptr m p =>
      simp only [writeFields] at h
      cases hp : ptr m p g with
      | error e => rw [hp] at h; cases h
      | ok o =>
        obtain ⟨c0, g0⟩ := o
        rw [hp] at h
        simp only [bind, Except.bind] at h
        cases hf : writeFields ptr fs g0 with
        | error e => rw [hf] at h; cases h
        | ok o =>
          obtain ⟨c1, g1⟩ := o
          rw [hf] at h
          cases h
          simp only [List.cons_append, writeFields, hp, bind, Except.bind, ih _ _ _ hf]
          simp [pure, Except.pure]

/-- What `save` does. -/
theorem save_split {c : Ctx} {kids : Kids} {f : Forest} {w : World} {H : GHeap} (hw : w.Ok H kids f) {dom : List Nat} {S : Schema}
    {pv : Bytes → Val → Prop} {po : Bytes → Bytes → BitVec 16 → BitVec 32 → Prop}
    (hg : GraphOk H (allFields (secsOf c kids f w) ++ tailOf c w) dom S pv po) {fuel : Nat} (hf : 2 * f.nodes.length + 1 < fuel)
    (hd : dom.length < fuel) (base : BitVec 32) :
    ∃ cs ds g1 g2, writeSecs [] (writePtr H fuel) (secsOf c kids f w) ⟨base, []⟩ = .ok (cs, g1) ∧
      writeFields (writePtr H fuel) (tailOf c w) g1 = .ok (ds, g2) ∧
      w.save c H kids fuel ⟨base, []⟩ = .ok (cs ++ (ds ++ (flagDoc c w).calls), g2) := by
  obtain ⟨cs, g1, e1, hm1⟩ := writeSecs_total [] dom hg fuel (secsOf c kids f w) ⟨base, []⟩
    (fun s hs n a ha => hg.rootsIn n a (List.mem_append_left _ (List.mem_flatMap.2 ⟨s, hs, ha⟩)))
    (by simp only [unwritten]; exact Nat.lt_of_le_of_lt (List.length_filter_le _ _) hd)
  obtain ⟨ds, g2, e2, _⟩ := writeFields_total dom H fuel (writePtr_total hg fuel) (tailOf c w) g1
    (fun n a ha => hg.rootsIn n a (List.mem_append_right _ ha))
    (by simp only [unwritten]; exact Nat.lt_of_le_of_lt (List.length_filter_le _ _) hd)
  refine ⟨cs, ds, g1, g2, e1, e2, ?_⟩
  have ht : writeFields (writePtr H fuel) (w.tail c) g1 = .ok (ds ++ (flagDoc c w).calls, g2) := by
    unfold tail flagDoc
    unfold tailOf at e2
    cases hs : c.save with
    | false => rw [hs] at e2; simpa [Doc.calls] using e2
    | true =>
      rw [hs] at e2
      simp only [if_true] at e2
      cases hg2 : c.g2 with
      | false => simpa [Doc.calls] using e2
      | true => simpa [Doc.calls] using writeFields_snoc _ _ _ _ _ _ _ e2
  unfold save
  rw [sections_eq hw.trees hf]
  simp only [bind, Except.bind, writeSections_eq, e1, ht]
  rfl

/-- What is written is a document, and reading it makes a copy. -/
theorem world_doc_plain {c : Ctx} {kids : Kids} {f : Forest} {w : World} {H : GHeap} (hw : w.Ok H kids f) {dom : List Nat} {S : Schema}
    {pv : Bytes → Val → Prop} {po : Bytes → Bytes → BitVec 16 → BitVec 32 → Prop}
    (hg : GraphOk H (allFields (secsOf c kids f w) ++ tailOf c w) dom S pv po) (base : BitVec 32) (k : Bytes) (hk : emptyClass k = true)
    (hpo : ∀ n, Plain n → po n k 0 0) (fuel : Nat) (cs ds : List Call) (g1 g2 : GWr)
    (hw1 : writeSecs k (writePtr H fuel) (secsOf c kids f w) ⟨base, []⟩ = .ok (cs, g1))
    (hw2 : writeFields (writePtr H fuel) (tailOf c w) g1 = .ok (ds, g2)) :
    ∃ d : Doc, cs ++ ds = d.calls ∧ d.Numbered base ∧ d.next base = g2.index ∧ d.All pv po ∧
      ∀ {σ : Type} (r : RawReader σ) (M : SimMore r.toReader) (wide : Bool) (level : Level) e L s, L ≠ [] → M.R (d.app e :: L) s →
        ∃ N s2 g' φ w', (∀ n ≥ N, load r S { c with game := .g1 } wide n ⟨s, ⟨[], []⟩, [], {}, level⟩ =
            .ok ⟨s2, g', rootPushes φ f, w', level⟩) ∧ M.R (e :: L) s2 ∧ w'.spawnFlags = 0 ∧
          IsCopy H kids f.nodes φ (w.part c.save) w' g'.heap (rootPushes φ f) ∧
          (c.save = false → ∀ n ≥ N, ∀ m ≥ 5, loadSections r S wide n m ⟨s, ⟨[], []⟩, [], {}, level⟩ =
            .ok ⟨s2, g', rootPushes φ f, w', level⟩) := by
  have hsec : ∀ s ∈ secsOf c kids f w, po s.1 k 0 0 := by
    intro s hs
    refine hpo _ ?_
    have := sec_names hs
    revert this
    generalize s.1 = n
    intro h
    have : ∀ n ∈ [b!"VobTree", b!"CutscenePlayer", b!"SkyCtrl", b!"WayNet", b!"EndMarker"], Plain n := by decide
    exact this n h
  obtain ⟨d1, d2, h1, h2, h3, h4, h5, _⟩ := sections_round_trip (Bin.simMore [] [] []) hg base k hk hsec fuel cs ds g1 g2 hw1 hw2
  refine ⟨d1.app d2, by rw [Doc.calls_app, h1, h2], h3, h4, h5, ?_⟩
  intro σ r M wide level e L s hL hR
  obtain ⟨d1', d2', h1', h2', h3', _, _, hread⟩ := sections_round_trip M hg base k hk hsec fuel cs ds g1 g2 hw1 hw2
  have hd : d1.app d2 = d1'.app d2' := by
    refine (Doc.calls_inj (d1.app d2) (d1'.app d2') base [] [] (.inl rfl) (.inl rfl) ?_ h3 h3').1
    rw [List.append_nil, List.append_nil, Doc.calls_app, Doc.calls_app, ← h1, ← h2, ← h1', ← h2']
  rw [hd] at hR
  obtain ⟨s1, s2, g1', g2', φ, a1, _, a2, a3, a4⟩ := hread e L s hL hR
  obtain ⟨N, w', b1, b2, b3⟩ := world_read (wide := wide) hw level a1 a2 a4
  exact ⟨N, s2, g2', φ, w', b1, a3, b2, b3⟩

theorem world_doc {c : Ctx} {kids : Kids} {f : Forest} {w : World} {H : GHeap} (hw : w.Ok H kids f) {dom : List Nat} {S : Schema}
    {pv : Bytes → Val → Prop} {po : Bytes → Bytes → BitVec 16 → BitVec 32 → Prop}
    (hg : GraphOk H (allFields (secsOf c kids f w) ++ tailOf c w) dom S pv po) (base : BitVec 32) (k : Bytes) (hk : emptyClass k = true)
    (hpo : ∀ n, Plain n → po n k 0 0) (fuel : Nat) (cs ds : List Call) (g1 g2 : GWr)
    (hw1 : writeSecs k (writePtr H fuel) (secsOf c kids f w) ⟨base, []⟩ = .ok (cs, g1))
    (hw2 : writeFields (writePtr H fuel) (tailOf c w) g1 = .ok (ds, g2)) :
    ∃ d : Doc, cs ++ ds = d.calls ∧ d.Numbered base ∧ d.next base = g2.index ∧ d.All pv po ∧
      ∀ {σ : Type} (r : RawReader σ) (M : SimMore r.toReader) (wide : Bool) (level : Level) e L s, L ≠ [] → M.R (d.app e :: L) s →
        ∃ N s2 g' φ w', (∀ n ≥ N, load r S { c with game := .g1 } wide n ⟨s, ⟨[], []⟩, [], {}, level⟩ =
            .ok ⟨s2, g', rootPushes φ f, w', level⟩) ∧ M.R (e :: L) s2 ∧ w'.spawnFlags = 0 ∧
          IsCopy H kids f.nodes φ (w.part c.save) w' g'.heap (rootPushes φ f) := by
  obtain ⟨d, h1, h2, h3, h4, h5⟩ := world_doc_plain hw hg base k hk hpo fuel cs ds g1 g2 hw1 hw2
  refine ⟨d, h1, h2, h3, h4, fun r M wide level e L s hL hR => ?_⟩
  obtain ⟨N, s2, g', φ, w', b1, b2, b3, b4, _⟩ := h5 r M wide level e L s hL hR
  exact ⟨N, s2, g', φ, w', b1, b2, b3, b4⟩

/-- The object. -/
def objDoc (name : Bytes) (ix : BitVec 32) (d : Doc) : Doc := .obj name className versionId ix d .nil

theorem loadObject_ok {r : RawReader σ} (M : SimMore r.toReader) {S : Schema} {c : Ctx} {wide : Bool} {name : Bytes}
    {ix : BitVec 32} {d : Doc} {s : σ} {x : Load σ} (P : Load σ → Prop) (hR : M.R [objDoc name ix d] s)
    (h : ∀ s1, M.R [d, .nil] s1 → ∃ N y, (∀ n ≥ N, load r S c wide n { x with s := s1 } = .ok y) ∧ M.R [.nil, .nil] y.s ∧ P y) :
    ∃ N y s', (∀ n ≥ N, loadObject r S c wide n { x with s := s } = .ok { y with s := s' }) ∧ M.R [.nil] s' ∧ P y := by
  obtain ⟨s1, e1, r1⟩ := M.obj _ _ _ _ _ _ _ _ hR
  obtain ⟨N, y, e2, r2, hy⟩ := h s1 r1
  obtain ⟨s3, e3, r3⟩ := M.fin _ _ _ r2
  refine ⟨N, y, s3, fun n hn => ?_, r3, hy⟩
  unfold loadObject
  simp only [e1, bind, Except.bind, if_true]
  simp only [e2 n hn, endOrSkip_true e3]
  rfl

theorem ctx_g1 {c : Ctx} (h : c.g2 = false) : { c with game := .g1 } = c := by
  obtain ⟨g, sv, p⟩ := c
  cases g
  · rfl
  · cases h

/-- Reading the object. -/
theorem obj_read {c : Ctx} {kids : Kids} {f : Forest} {w : World} {H : GHeap} {S : Schema} (hs : c.save = true) (hc : c.g2 = false)
    {r : RawReader σ} (M : SimMore r.toReader) (wide : Bool) (level : Level) {d : Doc} {name : Bytes} {ix : BitVec 32} {s : σ}
    (h : ∀ (wide : Bool) (level : Level) e L s, L ≠ [] → M.R (d.app e :: L) s →
        ∃ N s2 g' φ w', (∀ n ≥ N, load r S { c with game := .g1 } wide n ⟨s, ⟨[], []⟩, [], {}, level⟩ =
            .ok ⟨s2, g', rootPushes φ f, w', level⟩) ∧ M.R (e :: L) s2 ∧ w'.spawnFlags = 0 ∧
          IsCopy H kids f.nodes φ (w.part c.save) w' g'.heap (rootPushes φ f)) (hR : M.R [objDoc name ix d] s) :
    ∃ N s' g' φ K w', (∀ n ≥ N, loadObject r S c wide n ⟨s, ⟨[], []⟩, [], {}, level⟩ = .ok ⟨s', g', K, w', level⟩) ∧ M.R [.nil] s' ∧
      IsCopy H kids f.nodes φ w w' g'.heap K := by
  obtain ⟨N, y, s', b1, b2, b3, φ, b4⟩ := loadObject_ok M (S := S) (c := c) (wide := wide) (x := ⟨s, ⟨[], []⟩, [], {}, level⟩)
    (fun y => y.level = level ∧ ∃ φ, IsCopy H kids f.nodes φ w y.w y.g.heap y.kids) hR (by
      intro s1 hs1
      obtain ⟨N, s2, g', φ, w', c1, c2, c3, c4⟩ := h wide level .nil [.nil] s1 (by simp) (by rw [Doc.app_nil]; exact hs1)
      rw [ctx_g1 hc] at c1
      exact ⟨N, ⟨s2, g', rootPushes φ f, w', level⟩, c1, c2, rfl, φ, by simpa [hs, part] using c4⟩)
  subst b3
  exact ⟨N, s', y.g, φ, y.kids, y.w, b1, b2, b4⟩

/-! ### The flags -/

theorem load_g2 {r : RawReader σ} {S : Schema} {c : Ctx} (hs : c.save = true) (hc : c.g2 = true) (wide : Bool) (n : Nat) (x : Load σ) :
    load r S c wide n x = load r S { c with game := .g1 } wide n x >>= loadFlags r.toReader := by
  unfold load
  simp only [bind, Except.bind, hs, if_true, hc]
  cases loadSections r S wide n n x with
  | error e => rfl
  | ok y =>
    simp only
    cases loadTail r.toReader S n y with
    | error e => rfl
    | ok z => rfl

theorem flagDoc_g2 {c : Ctx} {w : World} (hs : c.save = true) (hc : c.g2 = true) :
    flagDoc c w = .val b!"spawnFlags" (.bool (w.spawnFlags != 0)) .nil := if_pos ⟨hs, hc⟩

/-- Reading the object of a world of Gothic 2. -/
theorem obj_read2 {c : Ctx} {kids : Kids} {f : Forest} {w : World} {H : GHeap} {S : Schema} (hs : c.save = true) (hc : c.g2 = true)
    {r : RawReader σ} (M : SimMore r.toReader) (wide : Bool) (level : Level) {d : Doc} {name : Bytes} {ix v : BitVec 32} {s : σ}
    (h : ∀ (wide : Bool) (level : Level) e L s, L ≠ [] → M.R (d.app e :: L) s →
        ∃ N s2 g' φ w', (∀ n ≥ N, load r S { c with game := .g1 } wide n ⟨s, ⟨[], []⟩, [], {}, level⟩ =
            .ok ⟨s2, g', rootPushes φ f, w', level⟩) ∧ M.R (e :: L) s2 ∧ w'.spawnFlags = 0 ∧
          IsCopy H kids f.nodes φ (w.part c.save) w' g'.heap (rootPushes φ f))
    (hv : ∀ s, M.R [flagDoc c w, .nil] s → ∃ s', readInt r.toReader s = .ok (v, s') ∧ M.R [.nil, .nil] s')
    (hR : M.R [objDoc name ix (d.app (flagDoc c w))] s) :
    ∃ N s' g' φ K w', (∀ n ≥ N, loadObject r S c wide n ⟨s, ⟨[], []⟩, [], {}, level⟩ = .ok ⟨s', g', K, w', level⟩) ∧ M.R [.nil] s' ∧
      IsCopy H kids f.nodes φ w w' g'.heap K ∧ w'.spawnFlags = v := by
  obtain ⟨N, y, s', b1, b2, b3, φ, b4, b5⟩ := loadObject_ok M (S := S) (c := c) (wide := wide) (x := ⟨s, ⟨[], []⟩, [], {}, level⟩)
    (fun y => y.level = level ∧ ∃ φ, IsCopy H kids f.nodes φ w y.w y.g.heap y.kids ∧ y.w.spawnFlags = v) hR (by
      intro s1 hs1
      obtain ⟨N, s2, g', φ, w', c1, c2, c3, c4⟩ := h wide level (flagDoc c w) [.nil] s1 (by simp) hs1
      obtain ⟨s3, e3, r3⟩ := hv s2 c2
      refine ⟨N, ⟨s3, g', rootPushes φ f, { w' with spawnFlags := v }, level⟩, fun n hn => ?_, r3, rfl, φ, ?_, rfl⟩
      · rw [load_g2 hs hc]
        simp only [c1 n hn, bind, Except.bind, loadFlags, e3]
        rfl
      · have c4' : IsCopy H kids f.nodes φ w w' g'.heap (rootPushes φ f) := by simpa [hs, part] using c4
        exact ⟨c4'.vobs, c4'.wayNet, c4'.player, c4'.sky, c4'.npcs, c4'.spawns, c4'.enabled, c4'.tree, c4'.objects⟩)
  subst b3
  exact ⟨N, s', y.g, φ, y.kids, y.w, b1, b2, b4, b5⟩

/-- It fails where the flags cannot be read. -/
theorem obj_fail2 {c : Ctx} {kids : Kids} {f : Forest} {w : World} {H : GHeap} {S : Schema} (hs : c.save = true) (hc : c.g2 = true)
    {r : RawReader σ} (M : SimMore r.toReader) (wide : Bool) (level : Level) {d : Doc} {name : Bytes} {ix : BitVec 32} {s : σ} {e : Fail}
    (h : ∀ (wide : Bool) (level : Level) e L s, L ≠ [] → M.R (d.app e :: L) s →
        ∃ N s2 g' φ w', (∀ n ≥ N, load r S { c with game := .g1 } wide n ⟨s, ⟨[], []⟩, [], {}, level⟩ =
            .ok ⟨s2, g', rootPushes φ f, w', level⟩) ∧ M.R (e :: L) s2 ∧ w'.spawnFlags = 0 ∧
          IsCopy H kids f.nodes φ (w.part c.save) w' g'.heap (rootPushes φ f))
    (hv : ∀ s, M.R [flagDoc c w, .nil] s → r.val .int s = .error e)
    (hR : M.R [objDoc name ix (d.app (flagDoc c w))] s) :
    ∃ N, ∀ n ≥ N, loadObject r S c wide n ⟨s, ⟨[], []⟩, [], {}, level⟩ = .error e := by
  obtain ⟨s1, e1, r1⟩ := M.obj _ _ _ _ _ _ _ _ hR
  obtain ⟨N, s2, g', φ, w', c1, c2, _⟩ := h wide level (flagDoc c w) [.nil] s1 (by simp) r1
  refine ⟨N, fun n hn => ?_⟩
  unfold loadObject
  simp only [e1, bind, Except.bind, if_true]
  rw [load_g2 hs hc]
  simp only [c1 n hn, bind, Except.bind, loadFlags, readInt, hv s2 c2]

end Verif.World
