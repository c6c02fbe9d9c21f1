import Verif.Lemmas.World
import Verif.Props.VobTree
import Verif.Props.Mesh

/-! # C89: worlds -/

namespace Verif.Props

open Verif.Ar Verif.VobTree Verif.World
open Obj (Ctx Game)

theorem intName_plain {n : Bytes} (h : IntName n) : Plain n := by
  rcases h with rfl | rfl | ⟨i, rfl⟩
  · decide
  · decide
  · exact plain_numbered _ (by decide) (by decide) i

theorem intName_key {n : Bytes} (h : IntName n) : Asc.OkKey n := by
  rcases h with rfl | rfl | ⟨i, rfl⟩
  · decide
  · decide
  · exact okKey_childs _

/-- C89 for BINARY archives: a world of a saved game of Gothic 1 is loaded as it was saved. -/
theorem c89_binary (H : GHeap) (dom : List Nat) (S : Schema) (kids : Kids) (f : Forest) (w : World) (hw : w.Ok H kids f)
    (hg : GraphOk H [] dom S (fun _ v => Bin.OkVal v) (fun n c _ _ => NoEol n ∧ NoEol c))
    (c : Ctx) (hs : c.save = true) (hc : c.g2 = false) (a : Bin.Wr) (ha : a.ws.pos ≤ a.ws.data.length) (name : Bytes) (hname : NoEol name)
    (post : Bytes) (tail : List Nat) (fuel : Nat) (hf : 2 * f.nodes.length + 1 < fuel) (hd : dom.length < fuel) (wide : Bool)
    (level : Level) :
    ∃ cs g a', w.saveObject c H kids fuel name ⟨a.index, []⟩ = .ok (cs, g) ∧ Bin.calls a cs = some a' ∧
      (a'.ws.pos - a.ws.pos < 2 ^ 32 → ∃ N g' φ K w', (∀ n ≥ N,
        loadObject binReader S c wide n ⟨⟨⟨a'.ws.data ++ post, a.ws.pos⟩, tail⟩, ⟨[], []⟩, [], {}, level⟩ =
          .ok ⟨⟨⟨a'.ws.data ++ post, a'.ws.pos⟩, tail⟩, g', K, w', level⟩) ∧
        World.IsCopy H kids f.nodes φ w w' g'.heap K) := by
  have hgw := worldGraph (c := c) hw hg (fun t c h => (classNames_ok t c h).1) (fun n h => h.noEol) (fun _ _ _ _ => trivial)
    (fun _ _ => ⟨trivial, trivial⟩) trivial
  obtain ⟨cs, ds, g1, g2, e1, e2, e3⟩ := save_split hw hgw hf hd (a.index + 1)
  obtain ⟨d, h1, h2, h3, h4, h5⟩ := world_doc hw hgw (a.index + 1) [] rfl (fun n h => ⟨h.noEol, by decide⟩) fuel cs ds g1 g2 e1 e2
  have hfl : (flagDoc c w).calls = [] := by simp [flagDoc, hc, Doc.calls]
  rw [hfl, List.append_nil] at e3
  have hnum : (objDoc name a.index d).Numbered a.index := ⟨rfl, h2, trivial⟩
  have hwd := Bin.write_doc _ a ha hnum []
  rw [List.append_nil] at hwd
  refine ⟨(objDoc name a.index d).calls, g2, _, ?_, hwd, ?_⟩
  · unfold saveObject
    simp only [e3, bind, Except.bind, h1]
    rfl
  intro hsz
  have hdrop := Ws.write_drop a.ws (Bin.enc (objDoc name a.index d)) post ha
  have hle := Ws.write_le a.ws (Bin.enc (objDoc name a.index d)) ha
  simp only [Ws.write] at hsz
  obtain ⟨N, ⟨⟨sd, sp⟩, se⟩, g', φ, K, w', b1, b2, b3⟩ := obj_read (r := binReader) hs hc
    (Bin.simMore ((a.ws.write (Bin.enc (objDoc name a.index d))).data ++ post)
      (a.ws.data.drop (a.ws.pos + (Bin.enc (objDoc name a.index d)).length) ++ post) tail) wide level (h5 binReader _)
    (s := ⟨⟨(a.ws.write (Bin.enc (objDoc name a.index d))).data ++ post, a.ws.pos⟩, tail⟩) (name := name) (ix := a.index)
    (by
      refine ⟨rfl, ?_, ?_, ?_, by simp [Bin.endsOf]⟩
      · intro x hx
        simp only [List.mem_singleton] at hx
        subst hx
        exact ⟨⟨⟨hname, by decide⟩, h4, trivial⟩, by omega⟩
      · simp only [Ws.write, List.length_append] at hle ⊢
        omega
      · show ((a.ws.write _).data ++ post).drop a.ws.pos = _
        rw [hdrop]; simp [Bin.encs])
  obtain ⟨r1, r2, r3, r4, r5⟩ := b2
  simp only at r1 r3 r4 r5
  subst r1 r5
  simp only [Bin.encs, List.map_cons, List.map_nil, List.flatten_cons, List.flatten_nil, Bin.enc, List.append_nil, List.nil_append] at r4
  rw [end_pos r3 hle hdrop r4] at b1
  exact ⟨N, g', φ, K, w', b1, b3⟩

/-- C89 for BINSAFE archives. -/
theorem c89_binsafe (H : GHeap) (dom : List Nat) (S : Schema) (kids : Kids) (f : Forest) (w : World) (hw : w.Ok H kids f)
    (hg : GraphOk H [] dom S (fun _ v => Bs.OkVal v) (fun n c _ _ => Bs.OkName n ∧ Bs.OkName c))
    (c : Ctx) (hs : c.save = true) (hc : c.g2 = false) (a : Bs.Wr) (ha : a.ws.pos ≤ a.ws.data.length) (name : Bytes)
    (hname : Bs.OkName name) (post : Bytes) (fuel : Nat) (hf : 2 * f.nodes.length + 1 < fuel) (hd : dom.length < fuel) (wide : Bool)
    (level : Level) :
    ∃ cs g, w.saveObject c H kids fuel name ⟨a.index, []⟩ = .ok (cs, g) ∧ ∃ N g' φ K w', (∀ n ≥ N,
        loadObject bsReader S c wide n ⟨⟨(Bs.calls a cs).ws.data ++ post, a.ws.pos⟩, ⟨[], []⟩, [], {}, level⟩ =
          .ok ⟨⟨(Bs.calls a cs).ws.data ++ post, (Bs.calls a cs).ws.pos⟩, g', K, w', level⟩) ∧
        World.IsCopy H kids f.nodes φ w w' g'.heap K := by
  have hgw := worldGraph (c := c) hw hg (fun t c h => (classNames_ok t c h).2.1) (fun n h => h.bs) (fun _ _ _ _ => trivial)
    (fun _ _ => ⟨trivial, trivial⟩) trivial
  obtain ⟨cs, ds, g1, g2, e1, e2, e3⟩ := save_split hw hgw hf hd (a.index + 1)
  obtain ⟨cs', e1', hcs⟩ := writeSecs_null Bs.call (fun w n => rfl) _ _ _ _ _ e1
  obtain ⟨d, h1, h2, h3, h4, h5⟩ := world_doc hw hgw (a.index + 1) nullClass rfl (fun n h => ⟨h.bs, by decide⟩) fuel cs' ds g1 g2 e1' e2
  have hfl : (flagDoc c w).calls = [] := by simp [flagDoc, hc, Doc.calls]
  rw [hfl, List.append_nil] at e3
  have hnum : (objDoc name a.index d).Numbered a.index := ⟨rfl, h2, trivial⟩
  have hwd := Bs.write_doc' _ a ha hnum
  refine ⟨.begin name className versionId :: (cs ++ ds ++ [.finish]), g2, ?_, ?_⟩
  · unfold saveObject
    simp only [e3, bind, Except.bind]
    rfl
  have hws : (Bs.calls a (.begin name className versionId :: (cs ++ ds ++ [.finish]))) = Bs.calls a (objDoc name a.index d).calls := by
    simp only [objDoc, Doc.calls, Bs.calls, List.foldl_cons, List.foldl_append, hcs]
    rw [← h1, List.foldl_append]
  rw [hws, hwd]
  simp only
  have hdrop := Ws.write_drop a.ws (Bs.enc a.keys (objDoc name a.index d)) post ha
  have hle := Ws.write_le a.ws (Bs.enc a.keys (objDoc name a.index d)) ha
  obtain ⟨N, ⟨sd, sp⟩, g', φ, K, w', b1, b2, b3⟩ := obj_read (r := bsReader) hs hc
    (Bs.simMore ((a.ws.write (Bs.enc a.keys (objDoc name a.index d))).data ++ post)
      (a.ws.data.drop (a.ws.pos + (Bs.enc a.keys (objDoc name a.index d)).length) ++ post)) wide level (h5 bsReader _)
    (s := ⟨(a.ws.write (Bs.enc a.keys (objDoc name a.index d))).data ++ post, a.ws.pos⟩) (name := name) (ix := a.index)
    (by
      refine ⟨rfl, ?_, ?_, _, hdrop, a.keys, rfl⟩
      · intro x hx
        simp only [List.mem_singleton] at hx
        subst hx
        exact ⟨⟨hname, by decide⟩, h4, trivial⟩
      · simp only [Ws.write, List.length_append] at hle ⊢
        omega)
  obtain ⟨r1, r2, r3, bs, r4, ks, r5⟩ := b2
  simp only at r1 r3 r4
  subst r1 r5
  rw [end_pos r3 hle hdrop r4] at b1
  exact ⟨N, g', φ, K, w', b1, b3⟩

/-- C89 for ASCII archives: also, the numbers of the spawn locations must be such that they survive the conversion to text. -/
theorem c89_ascii (H : GHeap) (dom : List Nat) (S : Schema) (kids : Kids) (f : Forest) (w : World) (hw : w.Ok H kids f)
    (hg : GraphOk H [] dom S (fun n v => Asc.OkKey n ∧ Asc.OkVal v) (fun n c _ _ => Asc.OkName n ∧ Asc.OkName c))
    (hsp : ∀ s ∈ w.spawns, Asc.OkVal (.vec3 s.position) ∧ Asc.OkVal (.float s.timer))
    (c : Ctx) (hs : c.save = true) (hc : c.g2 = false) (a : Asc.Wr) (ha : a.ws.pos = a.ws.data.length) (hi : a.indent = 0) (name : Bytes)
    (hname : Asc.OkName name) (post : Bytes) (hpost : Solid post) (fuel : Nat) (hf : 2 * f.nodes.length + 1 < fuel)
    (hd : dom.length < fuel) (wide : Bool) (level : Level) :
    ∃ cs g, w.saveObject c H kids fuel name ⟨a.index, []⟩ = .ok (cs, g) ∧ ∃ N g' φ K w', (∀ n ≥ N,
        loadObject ascReader S c wide n ⟨⟨(Asc.calls a cs).ws.data ++ post, a.ws.pos⟩, ⟨[], []⟩, [], {}, level⟩ =
          .ok ⟨⟨(Asc.calls a cs).ws.data ++ post, (Asc.calls a cs).ws.pos⟩, g', K, w', level⟩) ∧
        World.IsCopy H kids f.nodes φ w w' g'.heap K := by
  have hgw := worldGraph (c := c) hw hg (fun t c h => (classNames_ok t c h).2.2) (fun n h => h.asc)
    (by
      intro n k hn hk
      refine ⟨intName_key hn, ?_⟩
      show -10 ^ 9 < (BitVec.ofNat 32 k).toInt
      rw [BitVec.toInt_eq_toNat_cond, toNat_small hk, if_pos (by omega)]
      omega)
    (fun s h => ⟨⟨by decide, (hsp s h).1⟩, by decide, (hsp s h).2⟩) ⟨by decide, trivial⟩
  obtain ⟨cs, ds, g1, g2, e1, e2, e3⟩ := save_split hw hgw hf hd (a.index + 1)
  obtain ⟨cs', e1', hcs⟩ := writeSecs_null Asc.call (fun w n => rfl) _ _ _ _ _ e1
  obtain ⟨d, h1, h2, h3, h4, h5⟩ := world_doc hw hgw (a.index + 1) nullClass rfl (fun n h => ⟨h.asc, by decide⟩) fuel cs' ds g1 g2 e1' e2
  have hfl : (flagDoc c w).calls = [] := by simp [flagDoc, hc, Doc.calls]
  rw [hfl, List.append_nil] at e3
  have hnum : (objDoc name a.index d).Numbered a.index := ⟨rfl, h2, trivial⟩
  refine ⟨.begin name className versionId :: (cs ++ ds ++ [.finish]), g2, ?_, ?_⟩
  · unfold saveObject
    simp only [e3, bind, Except.bind]
    rfl
  have hws : (Asc.calls a (.begin name className versionId :: (cs ++ ds ++ [.finish]))) = Asc.calls a (objDoc name a.index d).calls := by
    simp only [objDoc, Doc.calls, Asc.calls, List.foldl_cons, List.foldl_append, hcs]
    rw [← h1, List.foldl_append]
  rw [hws]
  obtain ⟨_, q2, q3, q4⟩ := asc_start _ a ha hi hnum ⟨⟨hname, by decide⟩, h4, trivial⟩ post hpost
  obtain ⟨N, ⟨sd, sp⟩, g', φ, K, w', b1, b2, b3⟩ := obj_read (r := ascReader) hs hc
    (Asc.simMore a.junk _ post hpost) wide level (h5 ascReader _) q4
  obtain ⟨r1, r2, r3, r4⟩ := b2
  simp only at r1 r3 r4
  subst r1
  have hsp : sp = (Asc.calls a (objDoc name a.index d).calls).ws.pos := by
    have hb : List.drop sp ((Asc.calls a (objDoc name a.index d).calls).ws.data ++ post) = post := r4
    have := congrArg List.length hb
    simp at this r3
    omega
  rw [hsp] at b1
  exact ⟨N, g', φ, K, w', b1, b3⟩

/-! ## Gothic 2

The flags for spawning are written as a `bool` and read as an `int`. -/

/-- Reading a number where one byte is left. -/
theorem read_flags {data : Bytes} {sp : Nat} {se : List Nat} {x : Byte} {v : BitVec 32} (h3 : sp ≤ data.length) (h4 : data.drop sp = [x])
    (hv : decW 32 ([x] ++ List.replicate 3 0) = v) :
    readInt binReader.toReader ⟨⟨data, sp⟩, se⟩ = .ok (v, ⟨⟨data, sp + 1⟩, se⟩) := by
  have hl := congrArg List.length h4
  simp only [List.length_drop, List.length_cons, List.length_nil] at hl
  have hr : Rd.u32 ⟨data, sp⟩ = .ok (v, ⟨data, sp + 1⟩) := by
    have h1 : Rd.readPadded 4 ⟨data, sp⟩ = .ok ([x] ++ List.replicate 3 0, ⟨data, sp + 1⟩) := by
      unfold Rd.readPadded Rd.read
      have hc : sp + 4 > data.length := by omega
      have hd : data.length - sp = 1 := by omega
      simp only [hc, if_true, hd, h4]
      rfl
    unfold Rd.u32 Rd.word
    rw [Rd.bind_ok h1, hv]
    rfl
  have h2 : Bin.readVal .int ⟨data, sp⟩ = .ok (.int v, ⟨data, sp + 1⟩) := by
    show (do return Val.int (← Rd.u32) : Rd Val) _ = _
    rw [Rd.bind_ok hr]
    rfl
  have h5 : binReader.toReader.val .int ⟨⟨data, sp⟩, se⟩ = .ok (.int v, ⟨⟨data, sp + 1⟩, se⟩) := by
    show Bin.lift (Bin.readVal .int) _ = _
    simp only [Bin.lift, h2]
  simp only [readInt, h5, bind, Except.bind]
  rfl

/-- C89 for saved games of Gothic 2, in BINARY archives at the end of a file, as `SaveGame` writes them: all is loaded as it was saved,
but for the flags, which become 0 or 1. -/
theorem c89_g2_binary (H : GHeap) (dom : List Nat) (S : Schema) (kids : Kids) (f : Forest) (w : World) (hw : w.Ok H kids f)
    (hg : GraphOk H [] dom S (fun _ v => Bin.OkVal v) (fun n c _ _ => NoEol n ∧ NoEol c))
    (c : Ctx) (hs : c.save = true) (hc : c.g2 = true) (a : Bin.Wr) (ha : a.ws.pos = a.ws.data.length) (name : Bytes) (hname : NoEol name)
    (tail : List Nat) (fuel : Nat) (hf : 2 * f.nodes.length + 1 < fuel) (hd : dom.length < fuel) (wide : Bool) (level : Level) :
    ∃ cs g a', w.saveObject c H kids fuel name ⟨a.index, []⟩ = .ok (cs, g) ∧ Bin.calls a cs = some a' ∧
      (a'.ws.pos - a.ws.pos < 2 ^ 32 → ∃ N g' φ K w', (∀ n ≥ N,
        loadObject binReader S c wide n ⟨⟨⟨a'.ws.data, a.ws.pos⟩, tail⟩, ⟨[], []⟩, [], {}, level⟩ =
          .ok ⟨⟨⟨a'.ws.data, a'.ws.pos⟩, tail⟩, g', K, w', level⟩) ∧
        World.IsCopy H kids f.nodes φ w w' g'.heap K ∧ w'.spawnFlags = if w.spawnFlags = 0 then 0 else 1) := by
  have hgw := worldGraph (c := c) hw hg (fun t c h => (classNames_ok t c h).1) (fun n h => h.noEol) (fun _ _ _ _ => trivial)
    (fun _ _ => ⟨trivial, trivial⟩) trivial
  obtain ⟨cs, ds, g1, g2, e1, e2, e3⟩ := save_split hw hgw hf hd (a.index + 1)
  obtain ⟨d, h1, h2, h3, h4, h5⟩ := world_doc hw hgw (a.index + 1) [] rfl (fun n h => ⟨h.noEol, by decide⟩) fuel cs ds g1 g2 e1 e2
  have hfl := flagDoc_g2 (w := w) hs hc
  generalize hD : objDoc name a.index (d.app (flagDoc c w)) = D
  have hnum : D.Numbered a.index := by
    rw [← hD]
    exact ⟨rfl, Doc.numbered_app _ _ _ h2 (by rw [hfl]; trivial), trivial⟩
  have hwd := Bin.write_doc D a (by omega) hnum []
  rw [List.append_nil] at hwd
  refine ⟨D.calls, g2, _, ?_, hwd, ?_⟩
  · unfold saveObject
    simp only [e3, bind, Except.bind]
    rw [← hD]
    simp only [objDoc, Doc.calls, Doc.calls_app, ← h1, List.append_assoc]
    rfl
  intro hsz
  have hdrop := Ws.write_drop a.ws (Bin.enc D) [] (by omega)
  have hle := Ws.write_le a.ws (Bin.enc D) (by omega)
  have hnil : a.ws.data.drop (a.ws.pos + (Bin.enc D).length) = [] := List.drop_eq_nil_of_le (by omega)
  simp only [hnil, List.append_nil] at hdrop
  simp only [Ws.write] at hsz
  obtain ⟨N, ⟨⟨sd, sp⟩, se⟩, g', φ, K, w', b1, b2, b3, b4⟩ := obj_read2 (r := binReader) hs hc
    (Bin.simMore (a.ws.write (Bin.enc D)).data [] tail) wide level (h5 binReader _) (v := if w.spawnFlags = 0 then 0 else 1)
    (s := ⟨⟨(a.ws.write (Bin.enc D)).data, a.ws.pos⟩, tail⟩) (name := name) (ix := a.index) (by
      rintro ⟨⟨sd, sp⟩, se⟩ ⟨r1, r2, r3, r4, r5⟩
      simp only at r1 r3 r4 r5
      subst r1
      rw [hfl] at r4 r5
      simp only [Bin.encs, Bin.endsOf, List.map_cons, List.map_nil, List.flatten_cons, List.flatten_nil, Bin.enc, List.append_nil,
        Bin.encVal] at r4 r5
      obtain ⟨x, hx, hv⟩ : ∃ x : Byte, encW 1 (if (w.spawnFlags != 0) = true then 1 else 0 : BitVec 8) = [x] ∧
          decW 32 ([x] ++ List.replicate 3 0) = (if w.spawnFlags = 0 then 0 else 1) := by
        by_cases h0 : w.spawnFlags = 0
        · exact ⟨0, by simp only [h0]; decide, by rw [if_pos h0]; decide⟩
        · have : (w.spawnFlags != 0) = true := by simpa using h0
          exact ⟨1, by rw [if_pos this]; decide, by rw [if_neg h0]; decide⟩
      rw [hx] at r4 r5
      exact ⟨_, read_flags r3 r4 hv, rfl, fun d hd => ⟨by rcases List.mem_cons.1 hd with rfl | h <;> simp_all [Doc.All],
        by rcases List.mem_cons.1 hd with rfl | h <;> simp_all [Bin.enc]⟩, by
          have := congrArg List.length r4
          simp only [List.length_drop, List.length_cons, List.length_nil] at this
          show sp + 1 ≤ _
          omega, by
          rw [← List.drop_drop, r4]; rfl, by
          simpa [Bin.endsOf, Bin.enc] using r5⟩)
    (by
      rw [hD]
      refine ⟨rfl, ?_, ?_, ?_, by simp [Bin.endsOf]⟩
      · intro x hx
        simp only [List.mem_singleton] at hx
        subst hx
        refine ⟨?_, by omega⟩
        rw [← hD]
        exact ⟨⟨hname, by decide⟩, Doc.all_app _ _ h4 (by rw [hfl]; exact ⟨trivial, trivial⟩), trivial⟩
      · simp only [Ws.write] at hle ⊢
        omega
      · show (a.ws.write _).data.drop a.ws.pos = _
        rw [hdrop]; simp [Bin.encs])
  obtain ⟨r1, r2, r3, r4, r5⟩ := b2
  simp only at r1 r3 r4 r5
  subst r1 r5
  simp only [Bin.encs, List.map_cons, List.map_nil, List.flatten_cons, List.flatten_nil, Bin.enc, List.append_nil, List.nil_append] at r4
  have hsp : sp = (a.ws.write (Bin.enc D)).pos := by
    have x1 := congrArg List.length hdrop
    have x2 := congrArg List.length r4
    have x3 : (a.ws.write (Bin.enc D)).pos = a.ws.pos + (Bin.enc D).length := rfl
    simp only [List.length_append, List.length_drop, List.length_nil] at x1 x2 r3
    omega
  rw [hsp] at b1
  exact ⟨N, g', φ, K, w', b1, b3, b4⟩

/-- C89 is false of saved games of Gothic 2 in BINSAFE archives: every such world can be saved, and cannot be loaded. -/
theorem c89_g2_binsafe_violation (H : GHeap) (dom : List Nat) (S : Schema) (kids : Kids) (f : Forest) (w : World) (hw : w.Ok H kids f)
    (hg : GraphOk H [] dom S (fun _ v => Bs.OkVal v) (fun n c _ _ => Bs.OkName n ∧ Bs.OkName c))
    (c : Ctx) (hs : c.save = true) (hc : c.g2 = true) (a : Bs.Wr) (ha : a.ws.pos ≤ a.ws.data.length) (name : Bytes)
    (hname : Bs.OkName name) (post : Bytes) (fuel : Nat) (hf : 2 * f.nodes.length + 1 < fuel) (hd : dom.length < fuel) (wide : Bool)
    (level : Level) :
    ∃ cs g, w.saveObject c H kids fuel name ⟨a.index, []⟩ = .ok (cs, g) ∧ ∃ N, ∀ n ≥ N,
        loadObject bsReader S c wide n ⟨⟨(Bs.calls a cs).ws.data ++ post, a.ws.pos⟩, ⟨[], []⟩, [], {}, level⟩ =
          .error (.throw .parser) := by
  have hgw := worldGraph (c := c) hw hg (fun t c h => (classNames_ok t c h).2.1) (fun n h => h.bs) (fun _ _ _ _ => trivial)
    (fun _ _ => ⟨trivial, trivial⟩) trivial
  obtain ⟨cs, ds, g1, g2, e1, e2, e3⟩ := save_split hw hgw hf hd (a.index + 1)
  obtain ⟨cs', e1', hcs⟩ := writeSecs_null Bs.call (fun w n => rfl) _ _ _ _ _ e1
  obtain ⟨d, h1, h2, h3, h4, h5⟩ := world_doc hw hgw (a.index + 1) nullClass rfl (fun n h => ⟨h.bs, by decide⟩) fuel cs' ds g1 g2 e1' e2
  have hfl := flagDoc_g2 (w := w) hs hc
  generalize hD : objDoc name a.index (d.app (flagDoc c w)) = D
  have hnum : D.Numbered a.index := by
    rw [← hD]
    exact ⟨rfl, Doc.numbered_app _ _ _ h2 (by rw [hfl]; trivial), trivial⟩
  have hwd := Bs.write_doc' _ a ha hnum
  refine ⟨.begin name className versionId :: (cs ++ (ds ++ (flagDoc c w).calls) ++ [.finish]), g2, ?_, ?_⟩
  · unfold saveObject
    simp only [e3, bind, Except.bind]
    rfl
  have hws : (Bs.calls a (.begin name className versionId :: (cs ++ (ds ++ (flagDoc c w).calls) ++ [.finish]))) = Bs.calls a D.calls := by
    rw [← hD]
    simp only [objDoc, Doc.calls, Doc.calls_app, Bs.calls, List.foldl_cons, List.foldl_append, hcs]
    rw [← h1, List.foldl_append]
  rw [hws, hwd]
  simp only
  have hdrop := Ws.write_drop a.ws (Bs.enc a.keys D) post ha
  have hle := Ws.write_le a.ws (Bs.enc a.keys D) ha
  refine obj_fail2 (r := bsReader) hs hc (Bs.simMore ((a.ws.write (Bs.enc a.keys D)).data ++ post)
      (a.ws.data.drop (a.ws.pos + (Bs.enc a.keys D).length) ++ post)) wide level (h5 bsReader _) (name := name) (ix := a.index) ?_ ?_
  · rintro ⟨sd, sp⟩ ⟨rfl, r2, r3, bs, r4, hl⟩
    obtain ⟨ks, r, rfl, hr⟩ := Bs.levels_cons hl
    rw [hfl] at r4
    simp only [Bs.enc, Bs.head, List.append_assoc] at r4
    simp only at r3
    have t1 := (Reads.u8 Bs.tHASH).atPos _ _ _ r3 r4
    have t2 := (Reads.seekCur (encW 4 (Bs.keyFor ks b!"spawnFlags")) 4 (by simp)).atPos _ _ _ t1.2.1 t1.2.2
    have t3 := (Reads.u8 (Bs.tag (.bool (w.spawnFlags != 0)))).atPos _ _ _ t2.2.1 t2.2.2
    refine Rd.bind_err ?_
    unfold Bs.ensureMeta
    rw [Rd.bind_ok t1.1]
    simp only [bne_self_eq_false, Bool.false_eq_true, if_false]
    rw [Rd.bind_ok (p := Rd.seek 4 .cur) t2.1, Rd.bind_ok t3.1]
    rfl
  · rw [hD]
    refine ⟨rfl, ?_, ?_, _, hdrop, a.keys, rfl⟩
    · intro x hx
      simp only [List.mem_singleton] at hx
      subst hx
      rw [← hD]
      exact ⟨⟨hname, by decide⟩, Doc.all_app _ _ h4 (by rw [hfl]; exact ⟨trivial, trivial⟩), trivial⟩
    · simp only [Ws.write, List.length_append] at hle ⊢
      omega

/-- C89 is false of saved games of Gothic 2 in ASCII archives: every such world can be saved, and cannot be loaded. -/
theorem c89_g2_ascii_violation (H : GHeap) (dom : List Nat) (S : Schema) (kids : Kids) (f : Forest) (w : World) (hw : w.Ok H kids f)
    (hg : GraphOk H [] dom S (fun n v => Asc.OkKey n ∧ Asc.OkVal v) (fun n c _ _ => Asc.OkName n ∧ Asc.OkName c))
    (hsp : ∀ s ∈ w.spawns, Asc.OkVal (.vec3 s.position) ∧ Asc.OkVal (.float s.timer))
    (c : Ctx) (hs : c.save = true) (hc : c.g2 = true) (a : Asc.Wr) (ha : a.ws.pos = a.ws.data.length) (hi : a.indent = 0) (name : Bytes)
    (hname : Asc.OkName name) (post : Bytes) (hpost : Solid post) (fuel : Nat) (hf : 2 * f.nodes.length + 1 < fuel)
    (hd : dom.length < fuel) (wide : Bool) (level : Level) :
    ∃ cs g, w.saveObject c H kids fuel name ⟨a.index, []⟩ = .ok (cs, g) ∧ ∃ N, ∀ n ≥ N,
        loadObject ascReader S c wide n ⟨⟨(Asc.calls a cs).ws.data ++ post, a.ws.pos⟩, ⟨[], []⟩, [], {}, level⟩ =
          .error (.throw .parser) := by
  have hgw := worldGraph (c := c) hw hg (fun t c h => (classNames_ok t c h).2.2) (fun n h => h.asc)
    (by
      intro n k hn hk
      refine ⟨intName_key hn, ?_⟩
      show -10 ^ 9 < (BitVec.ofNat 32 k).toInt
      rw [BitVec.toInt_eq_toNat_cond, toNat_small hk, if_pos (by omega)]
      omega)
    (fun s h => ⟨⟨by decide, (hsp s h).1⟩, by decide, (hsp s h).2⟩) ⟨by decide, trivial⟩
  obtain ⟨cs, ds, g1, g2, e1, e2, e3⟩ := save_split hw hgw hf hd (a.index + 1)
  obtain ⟨cs', e1', hcs⟩ := writeSecs_null Asc.call (fun w n => rfl) _ _ _ _ _ e1
  obtain ⟨d, h1, h2, h3, h4, h5⟩ := world_doc hw hgw (a.index + 1) nullClass rfl (fun n h => ⟨h.asc, by decide⟩) fuel cs' ds g1 g2 e1' e2
  have hfl := flagDoc_g2 (w := w) hs hc
  generalize hD : objDoc name a.index (d.app (flagDoc c w)) = D
  have hnum : D.Numbered a.index := by
    rw [← hD]
    exact ⟨rfl, Doc.numbered_app _ _ _ h2 (by rw [hfl]; trivial), trivial⟩
  refine ⟨.begin name className versionId :: (cs ++ (ds ++ (flagDoc c w).calls) ++ [.finish]), g2, ?_, ?_⟩
  · unfold saveObject
    simp only [e3, bind, Except.bind]
    rfl
  have hws : (Asc.calls a (.begin name className versionId :: (cs ++ (ds ++ (flagDoc c w).calls) ++ [.finish]))) = Asc.calls a D.calls := by
    rw [← hD]
    simp only [objDoc, Doc.calls, Doc.calls_app, Asc.calls, List.foldl_cons, List.foldl_append, hcs]
    rw [← h1, List.foldl_append]
  rw [hws]
  obtain ⟨_, q2, q3, q4⟩ := asc_start D a ha hi hnum (by
    rw [← hD]
    exact ⟨⟨hname, by decide⟩, Doc.all_app _ _ h4 (by rw [hfl]; exact ⟨⟨by decide, trivial⟩, trivial⟩), trivial⟩) post hpost
  refine obj_fail2 (r := ascReader) hs hc (Asc.simMore a.junk _ post hpost) wide level (h5 ascReader _) (name := name) (ix := a.index)
    ?_ (by rw [hD]; exact q4)
  rintro ⟨sd, sp⟩ ⟨rfl, r2, r3, r4⟩
  rw [hfl, Asc.pending_cons a.junk _ _ (Asc.entryLine b!"spawnFlags" b!"bool" (if (w.spawnFlags != 0) = true then b!"1" else b!"0")) .nil rfl] at r4
  obtain ⟨ws, b', hws, hb, hr⟩ := r4
  simp only at r3 hb
  have hl : NoEol (Asc.entryLine b!"spawnFlags" b!"bool" (if (w.spawnFlags != 0) = true then b!"1" else b!"0")) := by
    split <;> decide
  obtain ⟨t1, _, _⟩ := (ReadsIf.line _ ws hl hws).atPos _ sp b' r3 hb (Asc.body_solid post hpost _ (by intro l hl; simp [Asc.pending, Asc.lines] at hl; subst hl; exact ⟨91, [93], rfl, by decide, by decide⟩) b' hr)
  have key : Asc.readEntry b!"int" ⟨(Asc.calls a D.calls).ws.data ++ post, sp⟩ = .error (.throw .parser) := by
    unfold Asc.readEntry
    rw [Rd.bind_ok t1]
    split <;> rfl
  show (do return .int (BitVec.ofInt 32 (← stoi (← Asc.readEntry b!"int"))) : Rd Val) _ = _
  rw [Rd.bind_err key]

/-- C89, part, for saved games of Gothic 2: with flags 0 or 1 these are also loaded as saved. Missing: other flags, and the other
formats, for both of which it is false. -/
theorem c89_g2_binary_partial (H : GHeap) (dom : List Nat) (S : Schema) (kids : Kids) (f : Forest) (w : World) (hw : w.Ok H kids f)
    (hflags : w.spawnFlags = 0 ∨ w.spawnFlags = 1)
    (hg : GraphOk H [] dom S (fun _ v => Bin.OkVal v) (fun n c _ _ => NoEol n ∧ NoEol c))
    (c : Ctx) (hs : c.save = true) (hc : c.g2 = true) (a : Bin.Wr) (ha : a.ws.pos = a.ws.data.length) (name : Bytes) (hname : NoEol name)
    (tail : List Nat) (fuel : Nat) (hf : 2 * f.nodes.length + 1 < fuel) (hd : dom.length < fuel) (wide : Bool) (level : Level) :
    ∃ cs g a', w.saveObject c H kids fuel name ⟨a.index, []⟩ = .ok (cs, g) ∧ Bin.calls a cs = some a' ∧
      (a'.ws.pos - a.ws.pos < 2 ^ 32 → ∃ N g' φ K w', (∀ n ≥ N,
        loadObject binReader S c wide n ⟨⟨⟨a'.ws.data, a.ws.pos⟩, tail⟩, ⟨[], []⟩, [], {}, level⟩ =
          .ok ⟨⟨⟨a'.ws.data, a'.ws.pos⟩, tail⟩, g', K, w', level⟩) ∧
        World.IsCopy H kids f.nodes φ w w' g'.heap K ∧ w'.spawnFlags = w.spawnFlags) := by
  obtain ⟨cs, g, a', h1, h2, h3⟩ := c89_g2_binary H dom S kids f w hw hg c hs hc a ha name hname tail fuel hf hd wide level
  refine ⟨cs, g, a', h1, h2, fun hsz => ?_⟩
  obtain ⟨N, g', φ, K, w', b1, b2, b3⟩ := h3 hsz
  refine ⟨N, g', φ, K, w', b1, b2, b3.trans ?_⟩
  rcases hflags with h | h <;> rw [h] <;> rfl

/-- C89 is false of saved games of Gothic 2 with other flags: they are loaded as 1. -/
theorem c89_g2_binary_violation (H : GHeap) (dom : List Nat) (S : Schema) (kids : Kids) (f : Forest) (w : World) (hw : w.Ok H kids f)
    (hflags : w.spawnFlags ≠ 0 ∧ w.spawnFlags ≠ 1)
    (hg : GraphOk H [] dom S (fun _ v => Bin.OkVal v) (fun n c _ _ => NoEol n ∧ NoEol c))
    (c : Ctx) (hs : c.save = true) (hc : c.g2 = true) (a : Bin.Wr) (ha : a.ws.pos = a.ws.data.length) (name : Bytes) (hname : NoEol name)
    (tail : List Nat) (fuel : Nat) (hf : 2 * f.nodes.length + 1 < fuel) (hd : dom.length < fuel) (wide : Bool) (level : Level) :
    ∃ cs g a', w.saveObject c H kids fuel name ⟨a.index, []⟩ = .ok (cs, g) ∧ Bin.calls a cs = some a' ∧
      (a'.ws.pos - a.ws.pos < 2 ^ 32 → ∃ N g' K w', (∀ n ≥ N,
        loadObject binReader S c wide n ⟨⟨⟨a'.ws.data, a.ws.pos⟩, tail⟩, ⟨[], []⟩, [], {}, level⟩ =
          .ok ⟨⟨⟨a'.ws.data, a'.ws.pos⟩, tail⟩, g', K, w', level⟩) ∧ w'.spawnFlags ≠ w.spawnFlags) := by
  obtain ⟨cs, g, a', h1, h2, h3⟩ := c89_g2_binary H dom S kids f w hw hg c hs hc a ha name hname tail fuel hf hd wide level
  refine ⟨cs, g, a', h1, h2, fun hsz => ?_⟩
  obtain ⟨N, g', φ, K, w', b1, b2, b3⟩ := h3 hsz
  refine ⟨N, g', K, w', b1, fun he => hflags.2 ?_⟩
  rw [← he, b3, if_neg hflags.1]

/-! ## An example

Two trees of virtual objects, a way net, a cutscene player and a sky; one NPC is part of a tree, another is not. -/

def demoWorldHeap : GHeap
  | 1 => some ⟨.zCVob, 0, [.val b!"a" (.int 1)]⟩
  | 2 => some ⟨.oCItem, 0, [.val b!"a" (.int 2)]⟩
  | 3 => some ⟨.zCVob, 0, [.val b!"a" (.int 3)]⟩
  | 4 => some ⟨.oCNpc, 0, [.val b!"a" (.int 4)]⟩
  | 5 => some ⟨.zCWayNet, 0, [.val b!"a" (.int 5)]⟩
  | 6 => some ⟨.oCNpc, 0, [.val b!"a" (.int 6)]⟩
  | 7 => some ⟨.oCCSPlayer, 0, [.val b!"a" (.int 7)]⟩
  | 8 => some ⟨.zCSkyControler_Outdoor, 0, [.val b!"a" (.int 8)]⟩
  | _ => none

def demoWorldKids : Kids
  | 1 => [some 2, some 4]
  | _ => []

def demoWorldForest : Forest := .cons 1 (.cons 2 .nil (.cons 4 .nil .nil)) (.cons 3 .nil .nil)

def demoWorld : World where
  vobs := [some 1, some 3]
  wayNet := some 5
  npcs := [some 4, none, some 6]
  spawns := [⟨some 6, ⟨0, 0, 0⟩, 0⟩]
  spawnEnabled := true
  spawnFlags := 1
  player := some 7
  sky := some 8

theorem demoWorldHeap_mem {a : Nat} {o : GObj} (h : demoWorldHeap a = some o) : a ∈ [1, 2, 3, 4, 5, 6, 7, 8] := by
  unfold demoWorldHeap at h
  split at h <;> first | decide | cases h

theorem demoWorld_ok : demoWorld.Ok demoWorldHeap demoWorldKids demoWorldForest := by
  refine ⟨?_, by decide, ?_, ?_, by decide, by decide, by decide, ?_, ?_, ?_, ?_, ?_⟩
  · exact ⟨_, rfl, ⟨_, rfl, rfl, _, rfl, rfl, rfl⟩, _, rfl, rfl, rfl⟩
  · have : ∀ a ∈ demoWorldForest.nodes, ((demoWorldHeap a).any fun o => o.type.isVobject) = true := by decide
    intro a ha
    have := this a ha
    cases ho : demoWorldHeap a with
    | none => rw [ho] at this; cases this
    | some o => rw [ho] at this; exact ⟨o, rfl, this⟩
  · decide
  · rintro a ⟨⟩; exact ⟨_, rfl, rfl⟩
  · rintro a ⟨⟩; exact ⟨_, rfl, rfl⟩
  · rintro a ⟨⟩; exact ⟨_, rfl, rfl⟩
  · intro p hp
    simp only [demoWorld, List.mem_cons, List.not_mem_nil, or_false] at hp
    rcases hp with rfl | rfl | rfl <;> rintro a ⟨⟩ <;> exact ⟨_, rfl, rfl⟩
  · intro p hp
    simp only [demoWorld, List.mem_cons, List.not_mem_nil, or_false] at hp
    rcases hp with rfl
    rintro a ⟨⟩; exact ⟨_, rfl, rfl⟩

theorem demoWorld_graph (pv : Bytes → Val → Prop) (po : Bytes → Bytes → BitVec 16 → BitVec 32 → Prop) (h : ∀ i, i < 9 → pv b!"a" (.int (BitVec.ofNat 32 i))) :
    GraphOk demoWorldHeap [] [1, 2, 3, 4, 5, 6, 7, 8] demoVobSchema pv po := by
  have key : ∀ a o, demoWorldHeap a = some o →
      o.type ≠ .ignored ∧ o.type ≠ .unknown ∧ ∃ i < 9, o.fields = [.val b!"a" (.int (BitVec.ofNat 32 i))] := by
    intro a o ho
    have := demoWorldHeap_mem ho
    simp only [List.mem_cons, List.not_mem_nil, or_false] at this
    rcases this with rfl | rfl | rfl | rfl | rfl | rfl | rfl | rfl <;> cases ho <;>
      refine ⟨by decide, by decide, ?_⟩
    · exact ⟨1, by decide, rfl⟩
    · exact ⟨2, by decide, rfl⟩
    · exact ⟨3, by decide, rfl⟩
    · exact ⟨4, by decide, rfl⟩
    · exact ⟨5, by decide, rfl⟩
    · exact ⟨6, by decide, rfl⟩
    · exact ⟨7, by decide, rfl⟩
    · exact ⟨8, by decide, rfl⟩
  refine ⟨fun a o ho => demoWorldHeap_mem ho, by decide, by simp, ?_, fun a o ho => ⟨(key a o ho).1, (key a o ho).2.1⟩, ?_, by simp, ?_⟩
  · intro a o ho n b hb
    obtain ⟨_, _, i, _, e⟩ := key a o ho
    rw [e] at hb
    simp at hb
  · intro a o ho
    obtain ⟨_, _, i, _, e⟩ := key a o ho
    rw [e]
    intro k hk
    simp only [List.length_cons, List.length_nil] at hk
    have : k = 0 ∨ k = 1 := by omega
    rcases this with rfl | rfl <;> rfl
  · intro a o ho f hf
    obtain ⟨_, _, i, hi, e⟩ := key a o ho
    rw [e, List.mem_singleton] at hf
    subst hf
    exact h i hi

example : GraphOk demoWorldHeap [] [1, 2, 3, 4, 5, 6, 7, 8] demoVobSchema (fun _ v => Bin.OkVal v) (fun n c _ _ => NoEol n ∧ NoEol c) :=
  demoWorld_graph _ _ (by decide)

example : GraphOk demoWorldHeap [] [1, 2, 3, 4, 5, 6, 7, 8] demoVobSchema (fun _ v => Bs.OkVal v) (fun n c _ _ => Bs.OkName n ∧ Bs.OkName c) :=
  demoWorld_graph _ _ (by decide)

example : GraphOk demoWorldHeap [] [1, 2, 3, 4, 5, 6, 7, 8] demoVobSchema (fun n v => Asc.OkKey n ∧ Asc.OkVal v)
    (fun n c _ _ => Asc.OkName n ∧ Asc.OkName c) :=
  demoWorld_graph _ _ (by decide)

example : (∀ s ∈ demoWorld.spawns, Asc.OkVal (.vec3 s.position) ∧ Asc.OkVal (.float s.timer)) := by decide +kernel

/-- Saves to a new archive and loads: the objects, who got which child, and the world. -/
def worldTrip (c : Ctx) (H : GHeap) (S : Schema) (kids : Kids) (level : Level) (w : World) (fuel : Nat) :
    Except Fail (List (ObjectType × List Got) × Pushes × World) := do
  let (cs, _) ← w.saveObject c H kids fuel b!"%" ⟨0, []⟩
  match Bin.calls ⟨⟨[], 0⟩, 0, []⟩ cs with
  | none => .error .ub
  | some a =>
    let x ← loadObject binReader S c false fuel ⟨⟨⟨a.ws.data, 0⟩, []⟩, ⟨[], []⟩, [], {}, level⟩
    return (x.g.heap, x.kids, x.w)

example : worldTrip ⟨.g2, true, true⟩ demoWorldHeap demoVobSchema demoWorldKids ⟨⟨newMesh, [], [], []⟩, {}⟩ demoWorld 30 =
    .ok ([(.zCVob, [.val (.int 1)]), (.oCItem, [.val (.int 2)]), (.oCNpc, [.val (.int 4)]), (.zCVob, [.val (.int 3)]),
        (.oCCSPlayer, [.val (.int 7)]), (.zCSkyControler_Outdoor, [.val (.int 8)]), (.zCWayNet, [.val (.int 5)]),
        (.oCNpc, [.val (.int 6)])],
      [(0, 1), (0, 2)],
      { vobs := [some 0, some 3], wayNet := some 6, npcs := [some 2, none, some 7], spawns := [⟨some 7, ⟨0, 0, 0⟩, 0⟩],
        spawnEnabled := true, spawnFlags := 1, player := some 4, sky := some 5 }) := by
  decide +kernel

end Verif.Props
