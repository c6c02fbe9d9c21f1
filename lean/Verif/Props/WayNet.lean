import Verif.Lemmas.WayNetGraph
import Verif.Props.ArchiveGraph

/-! # C47: way nets -/

namespace Verif.Props

open Verif.Ar

/-- C47 for BINARY archives, part: way nets without null pointers, in which a way point with an edge to itself is free or touched by an
earlier edge (`NetOk`). Names as in C10. -/
theorem c47_binary_partial (P : WpHeap) (net : WayNet) (dom pts : List Nat) (E : List (Nat × Nat)) (h : NetOk P net dom pts E)
    (S : Schema) (hS : S .zCWaypoint = WayPoint.load) (hn : ∀ a p, P a = some p → NoEol p.name)
    (w : Bin.Wr) (hw : w.ws.pos ≤ w.ws.data.length) (post : Bytes) (tail : List Nat) :
    ∃ fields cs g w', net.save P = .ok fields ∧
      writeFields (writePtr P.objects (dom.length + 1)) fields ⟨w.index, []⟩ = .ok (cs, g) ∧ Bin.calls w cs = some w' ∧
      (w'.ws.pos - w.ws.pos < 2 ^ 32 → ∃ N φ, ∀ fuel ≥ N, ∃ out s' g',
        WayNet.load Bin.reader S fuel ⟨⟨w'.ws.data ++ post, w.ws.pos⟩, tail⟩ ⟨[], []⟩ = .ok (out, s', g') ∧
          IsNetCopy (freeOf P pts) net.edges φ out ∧ IsCopy P.objects fields g'.heap φ) := by
  obtain ⟨cs, g, w', h1, h2, h3⟩ := bin_graph P.objects _ dom S _
    (netGraph h hS (fun _ v => Bin.OkVal v) NoEol (fun _ h => h.noEol) (fun t c h => (classNames_ok t c h).1) (by decide)
      (fun _ _ _ _ => trivial) (fun a p hp => ⟨hn a p hp, trivial, trivial, trivial, trivial⟩))
    (follows_listed _) w hw post tail
  refine ⟨_, cs, g, w', save_eq h, h1, h2, fun hs => ?_⟩
  obtain ⟨N, s', heap, cache, φ, hN, hc, rfl⟩ := h3 hs
  refine ⟨N + (netFields (freeOf P pts) E).length + 1, φ, fun fuel hf => ?_⟩
  have := hN fuel (by omega) fuel (by omega)
  rw [← List.nil_append (List.map Field.want _), readFields_listed _ [] [] fuel _ _ rfl (by simp; omega)] at this
  obtain ⟨out, o1, o2⟩ := net_loads h (by
    cases hr : readAs Bin.reader (readPtr Bin.reader S fuel) ((netFields (freeOf P pts) E).map Field.want)
      ⟨⟨w'.ws.data ++ post, w.ws.pos⟩, tail⟩ ⟨[], []⟩ with
    | error e => rw [hr] at this; cases this
    | ok x => rw [hr] at this; exact this) hc
  exact ⟨out, s', _, o1, o2, hc⟩

/-- C47 for BINSAFE archives, part: as for BINARY. -/
theorem c47_binsafe_partial (P : WpHeap) (net : WayNet) (dom pts : List Nat) (E : List (Nat × Nat)) (h : NetOk P net dom pts E)
    (S : Schema) (hS : S .zCWaypoint = WayPoint.load) (hn : ∀ a p, P a = some p → p.name.length < 65536)
    (w : Bs.Wr) (hw : w.ws.pos ≤ w.ws.data.length) (post : Bytes) :
    ∃ fields cs g, net.save P = .ok fields ∧
      writeFields (writePtr P.objects (dom.length + 1)) fields ⟨w.index, []⟩ = .ok (cs, g) ∧ ∃ N φ, ∀ fuel ≥ N, ∃ out s' g',
        WayNet.load Bs.reader S fuel ⟨(Bs.calls w cs).ws.data ++ post, w.ws.pos⟩ ⟨[], []⟩ = .ok (out, s', g') ∧
          IsNetCopy (freeOf P pts) net.edges φ out ∧ IsCopy P.objects fields g'.heap φ := by
  obtain ⟨cs, g, h1, N, s', heap, cache, φ, hN, hc, rfl⟩ := bs_graph P.objects _ dom S _
    (netGraph h hS (fun _ v => Bs.OkVal v) Bs.OkName (fun _ h => h.bs) (fun t c h => (classNames_ok t c h).2.1) (by decide)
      (fun _ _ _ _ => trivial) (fun a p hp => ⟨hn a p hp, trivial, trivial, trivial, trivial⟩))
    (follows_listed _) w hw post
  refine ⟨_, cs, g, save_eq h, h1, ?_⟩
  refine ⟨N + (netFields (freeOf P pts) E).length + 1, φ, fun fuel hf => ?_⟩
  have := hN fuel (by omega) fuel (by omega)
  rw [← List.nil_append (List.map Field.want _), readFields_listed _ [] [] fuel _ _ rfl (by simp; omega)] at this
  obtain ⟨out, o1, o2⟩ := net_loads h (by
    cases hr : readAs Bs.reader (readPtr Bs.reader S fuel) ((netFields (freeOf P pts) E).map Field.want)
      ⟨(Bs.calls w cs).ws.data ++ post, w.ws.pos⟩ ⟨[], []⟩ with
    | error e => rw [hr] at this; cases this
    | ok x => rw [hr] at this; exact this) hc
  exact ⟨out, s', _, o1, o2, hc⟩

/-- C47 for ASCII archives, part: as for BINARY, and numbers as in C17. -/
theorem c47_ascii_partial (P : WpHeap) (net : WayNet) (dom pts : List Nat) (E : List (Nat × Nat)) (h : NetOk P net dom pts E)
    (S : Schema) (hS : S .zCWaypoint = WayPoint.load)
    (hn : ∀ a p, P a = some p → NoEol p.name ∧ -10 ^ 9 < p.waterDepth.toInt ∧ Asc.OkVal (.vec3 p.position) ∧
      Asc.OkVal (.vec3 p.direction))
    (w : Asc.Wr) (hw : w.ws.pos = w.ws.data.length) (hi : w.indent = 0) (post : Bytes) (hpost : Solid post) :
    ∃ fields cs g, net.save P = .ok fields ∧
      writeFields (writePtr P.objects (dom.length + 1)) fields ⟨w.index, []⟩ = .ok (cs, g) ∧ ∃ N φ, ∀ fuel ≥ N, ∃ out s' g',
        WayNet.load Asc.reader S fuel ⟨(Asc.calls w cs).ws.data ++ post, w.ws.pos⟩ ⟨[], []⟩ = .ok (out, s', g') ∧
          IsNetCopy (freeOf P pts) net.edges φ out ∧ IsCopy P.objects fields g'.heap φ := by
  obtain ⟨cs, g, h1, N, s', heap, cache, φ, hN, hc, rfl⟩ := asc_graph P.objects _ dom S _
    (netGraph h hS (fun n v => Asc.OkKey n ∧ Asc.OkVal v) Asc.OkName (fun _ h => h.asc) (fun t c h => (classNames_ok t c h).2.2)
      (by decide)
      (by
        intro n hn k hk
        refine ⟨by revert n; decide, ?_⟩
        show -10 ^ 9 < (BitVec.ofNat 32 k).toInt
        rw [BitVec.toInt_eq_toNat_cond]
        have : (BitVec.ofNat 32 k).toNat = k := by simp; omega
        rw [this, if_pos (by omega)]
        omega)
      (fun a p hp => ⟨⟨by decide, (hn a p hp).1⟩, ⟨by decide, (hn a p hp).2.1⟩, ⟨by decide, trivial⟩, ⟨by decide, (hn a p hp).2.2.1⟩,
        ⟨by decide, (hn a p hp).2.2.2⟩⟩))
    (follows_listed _) w hw hi post hpost
  refine ⟨_, cs, g, save_eq h, h1, ?_⟩
  refine ⟨N + (netFields (freeOf P pts) E).length + 1, φ, fun fuel hf => ?_⟩
  have := hN fuel (by omega) fuel (by omega)
  rw [← List.nil_append (List.map Field.want _), readFields_listed _ [] [] fuel _ _ rfl (by simp; omega)] at this
  obtain ⟨out, o1, o2⟩ := net_loads h (by
    cases hr : readAs Asc.reader (readPtr Asc.reader S fuel) ((netFields (freeOf P pts) E).map Field.want)
      ⟨(Asc.calls w cs).ws.data ++ post, w.ws.pos⟩ ⟨[], []⟩ with
    | error e => rw [hr] at this; cases this
    | ok x => rw [hr] at this; exact this) hc
  exact ⟨out, s', _, o1, o2, hc⟩

/-! ### A way net -/

def demoWps : WpHeap
  | 1 => some ⟨b!"A", 0, false, ⟨0, 0, 0⟩, ⟨0, 0, 0⟩, true⟩
  | 2 => some ⟨b!"B", 7, true, ⟨0, 0, 0⟩, ⟨0, 0, 0⟩, false⟩
  | 3 => some ⟨b!"C", 0, false, ⟨0, 0, 0⟩, ⟨0, 0, 0⟩, false⟩
  | _ => none

/-- Edges A-B, C-A, C-C; A is free. -/
def demoNet : WayNet := ⟨[some 2, some 1, some 3], [(some 1, some 2), (some 3, some 1), (some 3, some 3)]⟩

theorem demoNet_ok : NetOk demoWps demoNet [1, 2, 3] [2, 1, 3] [(1, 2), (3, 1), (3, 3)] := by
  refine ⟨?_, by decide, rfl, rfl, by decide, by decide, by decide, by decide, ?_⟩
  · intro a p h
    unfold demoWps at h
    split at h <;> first | decide | cases h
  · intro i a h
    match i with
    | 0 | 1 => simp at h; omega
    | 2 =>
      simp only [List.getElem?_cons_succ, List.getElem?_cons_zero, Option.some.injEq, Prod.mk.injEq, and_self] at h
      exact .inr ⟨1, by omega, (3, 1), rfl, .inl h⟩
    | i + 3 => simp at h

/-- The `load` functions the examples need. -/
def wpSchema : Schema := fun t => if t = .zCWaypoint then WayPoint.load else fun _ => none

/-- Saves to a new BINSAFE archive and loads. -/
def netTrip (P : WpHeap) (net : WayNet) (fuel : Nat) : Except Fail LoadedNet := do
  let fields ← net.save P
  let (cs, _) ← writeFields (writePtr P.objects fuel) fields ⟨0, []⟩
  let (out, _) ← WayNet.load Bs.reader wpSchema fuel ⟨(Bs.calls ⟨⟨[], 0⟩, 0, []⟩ cs).ws.data, 0⟩ ⟨[], []⟩
  return out

example : netTrip demoWps demoNet 9 =
    .ok ⟨⟨[some 0, some 1, some 2], [(some 0, some 1), (some 2, some 0), (some 2, some 2)]⟩, [0]⟩ := by decide +kernel

/-- C47 is false for an edge from a way point to itself: the loaded way net lacks the way point. `use_count` is 3 because both ends of
the edge own it. -/
theorem c47_loop_violation : netTrip demoWps ⟨[some 2], [(some 2, some 2)]⟩ 9 = .ok ⟨⟨[], [(some 0, some 0)]⟩, []⟩ := by
  decide +kernel

/-- C47 is false for an edge without an end: the loaded way net has a null way point, which cannot be saved again. -/
theorem c47_null_violation : netTrip demoWps ⟨[some 2], [(some 2, none)]⟩ 9 = .ok ⟨⟨[some 0, none], [(some 0, none)]⟩, []⟩ ∧
    ∀ P, WayNet.save P ⟨[some 0, none], [(some 0, none)]⟩ = .error .ub := by
  refine ⟨by decide +kernel, fun P => ?_⟩
  simp only [WayNet.save, WayNet.freePoints]
  cases P 0 <;> rfl

end Verif.Props
