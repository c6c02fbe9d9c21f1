import Verif.Lemmas.WorldPlain
import Verif.Props.World

/-! # C90: worlds with their mesh -/

namespace Verif.Props

open Verif.Ar Verif.VobTree Verif.World
open Obj (Ctx Game)
open Spec (BTree)

/-! ## The section of the mesh -/

/-- C90 for the section of the mesh alone: what is written can be read, whatever surrounds it. -/
theorem c90_section (g : Game) (e : MeshEnv) (l l0 : Level) (t : BTree) (h : l.Fits g e t) (h0 : NewLevel l0) (w : Ws)
    (hw : w.pos ≤ w.data.length) (hpos : w.pos + 8 < 2 ^ 32) (post : Bytes) :
    ∃ w', l.save g e w = .ok w' ∧ ∃ l', SameLevel g l l' ∧ ∀ n ≥ 8, Level.load false n l0 ⟨w'.data ++ post, w.pos⟩ =
      .ok (l', ⟨w'.data ++ post, w'.pos⟩) := by
  obtain ⟨bs, -, -, hs, l', hl, hr⟩ := Level.round_trip g e l l0 t h h0
  refine ⟨w.write bs, hs w hw hpos, l', hl, fun n hn => ?_⟩
  have hdrop := Ws.write_drop w bs post hw
  have hle := Ws.write_le w bs hw
  refine ((hr n hn).atPos _ w.pos _ ?_ hdrop).1.trans rfl
  simp only [Ws.write, List.length_append] at hle ⊢
  omega

/-! ## Worlds -/

theorem plain_ok {H : GHeap} {kids : Kids} {f : Forest} {w : World} (h : w.Ok H kids f) : w.plain.Ok H kids f :=
  { trees := h.trees, nodup := h.nodup, vobs := h.vobs, few := h.few, fewVobs := h.fewVobs
    fewNpcs := by show 0 < _; decide
    fewSpawns := by show 0 < _; decide
    wayNet := h.wayNet
    player := by intro a ha; cases ha
    sky := by intro a ha; cases ha
    npcs := by intro p hp; cases hp
    spawns := by intro p hp; cases hp }

theorem plain_save {c : Ctx} (hs : c.save = false) (H : GHeap) (kids : Kids) (fuel : Nat) (w : World) (g : GWr) :
    w.plain.save c H kids fuel g = w.save c H kids fuel g := by
  simp [World.save, World.sections, World.tail, hs, World.plain]

theorem game_of_section {g : Game} {v : BitVec 32} (hv : v = if g = .g1 then 0x2090000 else 0x4090000) : gameOf v = g := by
  subst hv
  cases g <;> rfl

/-- C90 for BINARY archives: a world that is not part of a saved game is loaded as it was saved, with its mesh and its BSP tree, and its
version is found. -/
theorem c90_binary_partial (H : GHeap) (dom : List Nat) (S : Schema) (kids : Kids) (f : Forest) (w : World) (hw : w.Ok H kids f)
    (hg : GraphOk H [] dom S (fun _ v => Bin.OkVal v) (fun n c _ _ => NoEol n ∧ NoEol c))
    (c : Ctx) (hs : c.save = false) (e : MeshEnv) (l l0 : Level) (t : BTree) (hl : l.Fits c.game e t) (h0 : NewLevel l0)
    (a : Bin.Wr) (ha : a.ws.pos ≤ a.ws.data.length) (name : Bytes) (hname : NoEol name) (hpos : a.ws.pos + name.length + 200 < 2 ^ 32)
    (post : Bytes) (tail : List Nat) (fuel : Nat) (hf : 2 * f.nodes.length + 1 < fuel) (hd : dom.length < fuel) :
    ∃ a' g, savePlain binWriter c e H kids fuel name l w ⟨a.index, []⟩ a = .ok (a', g) ∧
      (a'.ws.pos - a.ws.pos < 2 ^ 32 →
        (∀ n ≥ 1, determineVersion binReader false n ⟨⟨a'.ws.data ++ post, a.ws.pos⟩, tail⟩ = .ok c.game) ∧
        ∃ N g' φ K w' l', (∀ n ≥ N,
          loadObject binReader S c false n ⟨⟨⟨a'.ws.data ++ post, a.ws.pos⟩, tail⟩, ⟨[], []⟩, [], {}, l0⟩ =
            .ok ⟨⟨⟨a'.ws.data ++ post, a'.ws.pos⟩, tail⟩, g', K, w', l'⟩) ∧
          World.IsCopy H kids f.nodes φ w.plain w' g'.heap K ∧ SameLevel c.game l l') := by
  obtain ⟨bs, -, hv, hop, l', hsame, hread⟩ := Level.round_trip c.game e l l0 t hl h0
  have hgw := worldGraph (c := c) hw hg (fun t c h => (classNames_ok t c h).1) (fun n h => h.noEol) (fun _ _ _ _ => trivial)
    (fun _ _ => ⟨trivial, trivial⟩) trivial
  obtain ⟨cs, ds, g1, g2, e1, e2, e3⟩ := save_split hw hgw hf hd (a.index + 1)
  obtain ⟨d, h1, h2, h3, h4, h5⟩ := world_doc_plain hw hgw (a.index + 1) [] rfl (fun n h => ⟨h.noEol, by decide⟩) fuel cs ds g1 g2 e1 e2
  have hfl : (flagDoc c w).calls = [] := by simp [flagDoc, hs, Doc.calls]
  rw [hfl, List.append_nil, h1] at e3
  obtain ⟨x1, x2, x3, x4, x5, y1, y2, y3, y4, y5, y6⟩ := bin_write name bs d a ha h2 hpos _ hop
  refine ⟨_, g2, savePlain_ok y1 y2 y3 y4 e3 y5 y6, fun hsz => ?_⟩
  generalize hD : binPlain name a.index bs d = D at *
  have hdrop := Ws.write_drop a.ws (Bin.enc D) post ha
  have hle := Ws.write_le a.ws (Bin.enc D) ha
  simp only [Ws.write] at hsz
  have hfirst := bin_first name a.index bs d ((a.ws.write (Bin.enc D)).data ++ post)
    (a.ws.data.drop (a.ws.pos + (Bin.enc D).length) ++ post) tail ⟨⟨(a.ws.write (Bin.enc D)).data ++ post, a.ws.pos⟩, tail⟩ (by
      rw [hD]
      refine ⟨rfl, ?_, ?_, ?_, by simp [Bin.endsOf]⟩
      · intro x hx
        simp only [List.mem_singleton] at hx
        subst hx
        refine ⟨?_, by omega⟩
        rw [← hD]
        exact ⟨⟨hname, by decide⟩, ⟨⟨by decide, by decide⟩, ⟨trivial, trivial⟩, h4⟩, trivial⟩
      · simp only [Ws.write, List.length_append] at hle ⊢
        omega
      · show ((a.ws.write _).data ++ post).drop a.ws.pos = _
        rw [hdrop]; simp [Bin.encs])
  refine ⟨fun n hn => (plain_version hv hfirst n hn).trans (by rw [game_of_section rfl]), ?_⟩
  obtain ⟨N, ⟨⟨sd, sp⟩, se⟩, g', φ, K, w', b1, b2, -, b3⟩ := plain_read hs _ (fun wide => h5 binReader _ wide) hread hfirst
  obtain ⟨r1, r2, r3, r4, r5⟩ := b2
  simp only at r1 r3 r4 r5
  subst r1 r5
  simp only [Bin.encs, List.map_cons, List.map_nil, List.flatten_cons, List.flatten_nil, Bin.enc, List.append_nil, List.nil_append] at r4
  rw [end_pos r3 hle hdrop r4] at b1
  exact ⟨N, g', φ, K, w', l', b1, b3, hsame⟩

/-- C90 for BINSAFE archives. -/
theorem c90_binsafe_partial (H : GHeap) (dom : List Nat) (S : Schema) (kids : Kids) (f : Forest) (w : World) (hw : w.Ok H kids f)
    (hg : GraphOk H [] dom S (fun _ v => Bs.OkVal v) (fun n c _ _ => Bs.OkName n ∧ Bs.OkName c))
    (c : Ctx) (hs : c.save = false) (e : MeshEnv) (l l0 : Level) (t : BTree) (hl : l.Fits c.game e t) (h0 : NewLevel l0)
    (a : Bs.Wr) (ha : a.ws.pos ≤ a.ws.data.length) (name : Bytes) (hname : Bs.OkName name) (hpos : a.ws.pos + 2 ^ 17 < 2 ^ 32)
    (post : Bytes) (fuel : Nat) (hf : 2 * f.nodes.length + 1 < fuel) (hd : dom.length < fuel) :
    ∃ a' g, savePlain bsWriter c e H kids fuel name l w ⟨a.index, []⟩ a = .ok (a', g) ∧
      (∀ n ≥ 1, determineVersion bsReader false n ⟨a'.ws.data ++ post, a.ws.pos⟩ = .ok c.game) ∧
      ∃ N g' φ K w' l', (∀ n ≥ N,
        loadObject bsReader S c false n ⟨⟨a'.ws.data ++ post, a.ws.pos⟩, ⟨[], []⟩, [], {}, l0⟩ =
          .ok ⟨⟨a'.ws.data ++ post, a'.ws.pos⟩, g', K, w', l'⟩) ∧
        World.IsCopy H kids f.nodes φ w.plain w' g'.heap K ∧ SameLevel c.game l l' := by
  obtain ⟨bs, -, hv, hop, l', hsame, hread⟩ := Level.round_trip c.game e l l0 t hl h0
  have hgw := worldGraph (c := c) hw hg (fun t c h => (classNames_ok t c h).2.1) (fun n h => h.bs) (fun _ _ _ _ => trivial)
    (fun _ _ => ⟨trivial, trivial⟩) trivial
  obtain ⟨cs, ds, g1, g2, e1, e2, e3⟩ := save_split hw hgw hf hd (a.index + 1)
  obtain ⟨cs', e1', hcs⟩ := writeSecs_null Bs.call (fun w n => rfl) _ _ _ _ _ e1
  obtain ⟨d, h1, h2, h3, h4, h5⟩ := world_doc_plain hw hgw (a.index + 1) nullClass rfl (fun n h => ⟨h.bs, by decide⟩) fuel cs' ds g1 g2 e1' e2
  have hfl : (flagDoc c w).calls = [] := by simp [flagDoc, hs, Doc.calls]
  rw [hfl, List.append_nil] at e3
  obtain ⟨x1, x2, x3, x4, x5, y1, y2, y3, y4, y5, y6⟩ := bs_write name bs d a ha h2 hname hpos _ hop
  refine ⟨_, g2, savePlain_ok y1 y2 y3 y4 e3 ((foldlM_pure Bs.call _ _).trans (congrArg Except.ok ?_)) y6, ?_⟩
  · rw [← y5, ← h1, List.foldl_append, List.foldl_append, hcs]
  dsimp only
  generalize hB : bsPlain name a.index bs a.keys d = B at *
  have hdrop := Ws.write_drop a.ws B post ha
  have hle := Ws.write_le a.ws B ha
  have hfirst := bs_first name hname a.index bs a.keys d h4 ((a.ws.write B).data ++ post) (a.ws.data.drop (a.ws.pos + B.length) ++ post) a.ws.pos
    (by
      simp only [Ws.write, List.length_append] at hle ⊢
      omega) (by rw [hB]; exact hdrop)
  refine ⟨fun n hn => (plain_version hv hfirst n hn).trans (by rw [game_of_section rfl]), ?_⟩
  obtain ⟨N, ⟨sd, sp⟩, g', φ, K, w', b1, b2, -, b3⟩ := plain_read hs _ (fun wide => h5 bsReader _ wide) hread hfirst
  obtain ⟨r1, r2, r3, bs', r4, ks, r5⟩ := b2
  simp only at r1 r3 r4
  subst r1 r5
  rw [end_pos r3 hle hdrop r4] at b1
  exact ⟨N, g', φ, K, w', l', b1, b3, hsame⟩

/-- The first byte of the section is no space. -/
theorem solid_section {g : Game} {bs : Bytes} (hv : bs.take 4 = encW 4 (if g = .g1 then 0x2090000 else 0x4090000 : BitVec 32)) :
    ∃ x y t, bs = x :: y :: t ∧ x ∉ Rd.lineSpaces := by
  have h1 : ∃ z u, bs.take 4 = 0 :: z :: u := by
    rw [hv]
    cases g
    · exact ⟨0, [9, 2], by decide⟩
    · exact ⟨0, [9, 4], by decide⟩
  obtain ⟨z, u, h1⟩ := h1
  refine ⟨0, z, u ++ bs.drop 4, ?_, by decide⟩
  rw [← List.cons_append, ← List.cons_append, ← h1, List.take_append_drop]

/-- C90 for ASCII archives. -/
theorem c90_ascii_partial (H : GHeap) (dom : List Nat) (S : Schema) (kids : Kids) (f : Forest) (w : World) (hw : w.Ok H kids f)
    (hg : GraphOk H [] dom S (fun n v => Asc.OkKey n ∧ Asc.OkVal v) (fun n c _ _ => Asc.OkName n ∧ Asc.OkName c))
    (c : Ctx) (hs : c.save = false) (e : MeshEnv) (l l0 : Level) (t : BTree) (hl : l.Fits c.game e t) (h0 : NewLevel l0)
    (a : Asc.Wr) (ha : a.ws.pos = a.ws.data.length) (hi : a.indent = 0) (name : Bytes) (hname : Asc.OkName name)
    (hpos : a.ws.pos + name.length + 200 < 2 ^ 32) (post : Bytes) (hpost : Solid post) (fuel : Nat) (hf : 2 * f.nodes.length + 1 < fuel)
    (hd : dom.length < fuel) :
    ∃ a' g, savePlain ascWriter c e H kids fuel name l w ⟨a.index, []⟩ a = .ok (a', g) ∧
      (∀ n ≥ 1, determineVersion ascReader false n ⟨a'.ws.data ++ post, a.ws.pos⟩ = .ok c.game) ∧
      ∃ N g' φ K w' l', (∀ n ≥ N,
        loadObject ascReader S c false n ⟨⟨a'.ws.data ++ post, a.ws.pos⟩, ⟨[], []⟩, [], {}, l0⟩ =
          .ok ⟨⟨a'.ws.data ++ post, a'.ws.pos⟩, g', K, w', l'⟩) ∧
        World.IsCopy H kids f.nodes φ w.plain w' g'.heap K ∧ SameLevel c.game l l' := by
  obtain ⟨bs, -, hv, hop, l', hsame, hread⟩ := Level.round_trip c.game e l l0 t hl h0
  have hw := plain_ok hw
  have hgw := worldGraph (c := c) hw hg (fun t c h => (classNames_ok t c h).2.2) (fun n h => h.asc)
    (by
      intro n k hn hk
      refine ⟨intName_key hn, ?_⟩
      show -10 ^ 9 < (BitVec.ofNat 32 k).toInt
      rw [BitVec.toInt_eq_toNat_cond, toNat_small hk, if_pos (by omega)]
      omega)
    (fun s h => by cases h) ⟨by decide, trivial⟩
  obtain ⟨cs, ds, g1, g2, e1, e2, e3⟩ := save_split hw hgw hf hd (a.index + 1)
  obtain ⟨cs', e1', hcs⟩ := writeSecs_null Asc.call (fun w n => rfl) _ _ _ _ _ e1
  obtain ⟨d, h1, h2, h3, h4, h5⟩ := world_doc_plain hw hgw (a.index + 1) nullClass rfl (fun n h => ⟨h.asc, by decide⟩) fuel cs' ds g1 g2 e1' e2
  have hfl : (flagDoc c w.plain).calls = [] := by simp [flagDoc, hs, Doc.calls]
  rw [hfl, List.append_nil, plain_save hs] at e3
  obtain ⟨x1, x2, x3, x4, x5, y1, y2, y3, y4, y5, y6⟩ := asc_write name bs d a (by omega) hi h2 hpos _ hop
  refine ⟨_, g2, savePlain_ok y1 y2 y3 y4 e3 ((foldlM_pure Asc.call _ _).trans (congrArg Except.ok ?_)) y6, ?_⟩
  · rw [← y5, ← h1, List.foldl_append, List.foldl_append, hcs]
  dsimp only
  generalize hB : ascPlain a.junk name a.index bs d = B at *
  have hdrop := Ws.write_drop a.ws B post (by omega)
  have hle := Ws.write_le a.ws B (by omega)
  rw [show List.drop (a.ws.pos + B.length) a.ws.data = [] from List.drop_eq_nil_of_le (by omega), List.nil_append] at hdrop
  have hp1 : a.ws.pos ≤ ((a.ws.write B).data ++ post).length := by
    rw [List.length_append]
    exact (Nat.le_add_right _ B.length).trans (hle.trans (Nat.le_add_right _ _))
  have hfirst := asc_first a.junk name hname a.index bs d h4 (solid_section hv) ((a.ws.write B).data ++ post) post hpost a.ws.pos hp1 (by rw [hB]; exact hdrop)
  refine ⟨fun n hn => (plain_version hv hfirst n hn).trans (by rw [game_of_section rfl]), ?_⟩
  obtain ⟨N, ⟨sd, sp⟩, g', φ, K, w', b1, b2, -, b3⟩ := plain_read hs _ (fun wide => h5 ascReader _ wide) hread hfirst
  obtain ⟨r1, r2, r3, r4⟩ := b2
  simp only at r1 r3 r4
  subst r1
  have hsp : sp = (a.ws.write B).pos := by
    have hb : List.drop sp ((a.ws.write B).data ++ post) = post := r4
    have x1 := congrArg List.length hdrop
    have := congrArg List.length hb
    have x3 : (a.ws.write B).pos = a.ws.pos + B.length := rfl
    simp only [List.length_append, List.length_drop] at this r3 x1 hle
    omega
  rw [hsp] at b1
  exact ⟨N, g', φ, K, w', l', b1, b3, hsame⟩

/-! ## Damaged files -/

theorem scan_end (data : Bytes) (n : Nat) : scanMesh n ⟨data, data.length⟩ = .error .hang := by
  induction n with
  | zero => rfl
  | succ n ih =>
    have hr : ∀ k, Rd.readPadded k ⟨data, data.length⟩ = .ok (List.replicate k 0, ⟨data, data.length⟩) := by
      intro k
      cases k <;> simp [Rd.readPadded, Rd.read]
    have h16 : Rd.u16 ⟨data, data.length⟩ = .ok (0, ⟨data, data.length⟩) := by
      unfold Rd.u16 Rd.word
      rw [Rd.bind_ok (hr _)]
      rfl
    have h32 : Rd.u32 ⟨data, data.length⟩ = .ok (0, ⟨data, data.length⟩) := by
      unfold Rd.u32 Rd.word
      rw [Rd.bind_ok (hr _)]
      rfl
    have hs : Rd.seek ((0 : BitVec 32).toNat : Int) .cur ⟨data, data.length⟩ = .ok ((), ⟨data, data.length⟩) :=
      ((Reads.seekCur [] _ rfl).atPos data data.length [] le_rfl (by simp)).1
    unfold scanMesh
    rw [Rd.bind_ok h16, Rd.bind_ok h32, Rd.bind_ok hs]
    exact ih

/-- C90 is false of damaged files: if the file ends behind any number of chunks of the mesh, loading never returns, whatever the fuel. -/
theorem c90_truncated_violation (wide : Bool) (l : Level) (v size : BitVec 32) (pre : Bytes) (front : List Spec.Chunk)
    (ht : ∀ c ∈ front, c.type ≠ 0xB060) (hs : ∀ c ∈ front, c.payload.length < 2 ^ 32) (n : Nat) :
    Level.load wide n l ⟨pre ++ (encW 4 v ++ encW 4 size ++ chunksBytes front), pre.length⟩ = .error .hang := by
  generalize hd : pre ++ (encW 4 v ++ encW 4 size ++ chunksBytes front) = data
  have key : ∀ (front : List Spec.Chunk) (n pos : Nat), (∀ c ∈ front, c.type ≠ 0xB060) → (∀ c ∈ front, c.payload.length < 2 ^ 32) →
      pos ≤ data.length → data.drop pos = chunksBytes front → scanMesh n ⟨data, pos⟩ = .error .hang := by
    intro front
    induction front with
    | nil =>
      intro n pos _ _ hp h
      have := congrArg List.length h
      simp only [List.length_drop, chunksBytes, List.map_nil, List.flatten_nil, List.length_nil] at this
      rw [show pos = data.length by omega]
      exact scan_end data n
    | cons c front ih =>
      intro n pos ht hs hp h
      cases n with
      | zero => rfl
      | succ n =>
        have hsz : (BitVec.ofNat 32 c.payload.length).toNat = c.payload.length := by
          have := hs c (by simp)
          simp; omega
        have h' : data.drop pos = encW 2 c.type ++ (encW 4 (BitVec.ofNat 32 c.payload.length) ++ (c.payload ++ chunksBytes front)) := by
          rw [h]; simp [chunksBytes, chunkBytes]
        obtain ⟨e1, p1, h1⟩ := (Reads.u16 _).atPos data pos _ hp h'
        obtain ⟨e2, p2, h2⟩ := (Reads.u32 _).atPos data _ _ p1 h1
        obtain ⟨e3, p3, h3⟩ := (Reads.seekCur c.payload _ hsz).atPos data _ _ p2 h2
        unfold scanMesh
        rw [Rd.bind_ok e1, Rd.bind_ok e2, Rd.bind_ok e3, if_pos (by simpa using ht c (by simp))]
        exact ih n _ (fun x hx => ht x (by simp [hx])) (fun x hx => hs x (by simp [hx])) p3 h3
  have h0 : data.drop pre.length = encW 4 v ++ (encW 4 size ++ chunksBytes front) := by rw [← hd]; simp
  obtain ⟨e1, p1, h1⟩ := (Reads.u32 v).atPos data pre.length _ (by rw [← hd]; simp) h0
  obtain ⟨e2, p2, h2⟩ := (Reads.u32 size).atPos data _ _ p1 h1
  unfold Level.load
  rw [Rd.bind_ok e1, Rd.bind_ok e2,
    Rd.bind_ok (p := Rd.tell) (show Rd.tell ⟨data, _⟩ = .ok (_, ⟨data, _⟩) from rfl), Rd.bind_err (key front n _ ht hs p2 h2)]

/-! ## An example -/

def plainTree : BTree :=
  .inner ⟨⟨1, 1, 1⟩, ⟨2, 2, 2⟩⟩ 0 3 ⟨1, 2, 3, 4⟩ 0
    (.inner ⟨⟨1, 1, 1⟩, ⟨2, 2, 2⟩⟩ 0 2 ⟨1, 0, 0, 4⟩ 0 (demoLeaf 0) (demoLeaf 1))
    (.inner ⟨⟨1, 1, 1⟩, ⟨2, 2, 2⟩⟩ 0 2 ⟨1, 0, 0, 4⟩ 0 (demoLeaf 2) .none)

def demoLevel : Level where
  mesh := litMesh
  bsp := { demoBsp with nodes := plainTree.nodesAt 0 0xFFFFFFFF, polygonIndices := [1, 0, 0], leafPolygons := [0, 0, 1] }

def demoMeshEnv : MeshEnv := ⟨⟨b!"1.1.2001 0:0:0", b!"a"⟩, ⟨b!"1.1.2001 0:0:0", b!"a"⟩, [some 0, some 2]⟩

/-- The number of bytes of the materials of the section. -/
def materialsSize : Nat :=
  match Obj.Material.saveCounted .g2 demoMeshEnv.start demoMeshEnv.finish litMesh.materials Ws.empty with
  | .ok w => w.data.length
  | .error _ => 2 ^ 32

theorem materialsSize_lt : materialsSize < 10000 := by decide +kernel

theorem litMesh_plain : ∀ x ∈ litMesh.materials, x.Plain := by
  intro x hx
  simp only [litMesh, List.mem_cons, List.not_mem_nil, or_false] at hx
  rcases hx with rfl | rfl
  · exact demo_plain.1
  · exact demo_plain.2

theorem demoLevel_small : ∀ w1 w2, demoLevel.mesh.save .g2 demoMeshEnv.start demoMeshEnv.finish demoMeshEnv.order Ws.empty = .ok w1 →
    demoLevel.bsp.save (Game.g2 = .g1) w1 = .ok w2 → w2.data.length + 8 < 2 ^ 32 := by
  intro w1 w2 h1 h2
  obtain ⟨mb, hmb, -⟩ := c87_mesh_reload_partial .g2 demoMeshEnv.start demoMeshEnv.finish ⟨by decide, by decide, by decide⟩ litMesh.materials
    litMesh_plain (by decide) (by decide)
  have hm := hmb Ws.empty (Nat.le_refl _)
  have hl : mb.length < 10000 := by
    have := materialsSize_lt
    unfold materialsSize at this
    rw [hm] at this
    simpa [Ws.write, Ws.empty, splice] using this
  have hs := WholeMesh.save_ok litMesh .g2 true rfl demoMeshEnv.start demoMeshEnv.finish demoMeshEnv.order mb _ _ hmb
    (litMesh.saveShared_ok demoMeshEnv.order litMesh_order _ rfl) rfl Ws.empty (Nat.le_refl _)
  have hc : ∀ lb cs, (chunksBytes (litMesh.chunks true mb lb cs)).length = (chunksBytes (litMesh.chunks true [] lb cs)).length + mb.length := by
    intro lb cs
    simp only [WholeMesh.chunks, chunksBytes, List.map_cons, List.flatten_cons, List.length_append, chunkBytes_length, List.length_nil]
    omega
  have h3 := hc (litMesh.lightBytes demoMeshEnv.order [lampImage 3, lampImage 1].reverse)
    [[(3, 0), (2, 0), (1, 0)].reverse, [(2, 0), (1, 0), (0, 0)].reverse].reverse
  have h4 : (chunksBytes (litMesh.chunks true [] (litMesh.lightBytes demoMeshEnv.order [lampImage 3, lampImage 1].reverse)
    [[(3, 0), (2, 0), (1, 0)].reverse, [(2, 0), (1, 0), (0, 0)].reverse].reverse)).length < 10000 := by decide +kernel
  have h5 : (chunksBytes (Bsp.chunks (decide (Game.g2 = .g1)) demoLevel.bsp plainTree)).length < 10000 := by decide +kernel
  cases h1.symm.trans hs
  rw [Bsp.save_emits (Game.g2 = .g1) demoLevel.bsp plainTree rfl (by simp [plainTree, demoLeaf, BTree.Proper]) (by decide)
    _ (Ws.write_le Ws.empty _ (Nat.le_refl _))] at h2
  cases h2
  rw [Ws.write_write _ _ _ (Nat.le_refl _)]
  generalize chunksBytes (Bsp.chunks _ _ _) = x at *
  generalize chunksBytes (litMesh.chunks _ mb _ _) = y at *
  simp only [Ws.write, Ws.empty, splice, List.length_append, List.length_nil, List.length_take, List.length_drop, List.length_replicate]
  omega

example : demoLevel.Fits .g2 demoMeshEnv plainTree where
  clock := ⟨by decide, by decide, by decide⟩
  order := litMesh_order
  plain := litMesh_plain
  fewMaterials := by decide
  notTen := by decide
  fewLightmaps := by decide
  pictures := litMesh_pictures
  mesh := litMesh_fits
  short := by intro h; cases h
  triangles := fun _ => ⟨rfl, rfl⟩
  bsp :=
    { nodes := rfl
      leaves := by decide
      notEmpty := by decide
      proper := by simp [plainTree, demoLeaf, BTree.Proper]
      lod := by simp [plainTree, demoLeaf, BTree.Lod]
      small := by decide
      inRange := by
        intro i hi
        simp only [demoLevel, demoBsp, List.mem_cons, List.not_mem_nil, or_false] at hi
        rcases hi with rfl | rfl | rfl <;> exact ⟨_, rfl, by decide⟩
      sorted := by decide
      perm := by decide
      lights := by decide
      names := by decide
      polygonCount := by decide
      sectorCount := by decide
      portalCount := by decide
      sizes := by decide +kernel }
  small := demoLevel_small

example : NewLevel ⟨⟨newMesh, [], [], []⟩, {}⟩ where
  bsp := ⟨_, rfl⟩
  materials := rfl
  lightmaps := rfl
  vertexIndices := rfl
  featureIndices := rfl
  polygons := rfl

end Verif.Props
