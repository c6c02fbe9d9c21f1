import Verif.Lemmas.MdsBinary
import Verif.Props.MdsParser

/-!
# C93: a compiled model script is read as its chunks say
-/

namespace Verif.Props

open Mds

/-- C93: which of the two forms a file has is told by its first two bytes: from F0 in the second byte on, or the bytes 00 D0, it
is compiled; else it is text. The whole file is given to the reader of that form. -/
theorem c93_dispatch (a b : Byte) (r : Bytes) (s : Script) :
    load s ⟨a :: b :: r, 0⟩ =
      if 0xF0 ≤ b.toNat ∨ (a = 0 ∧ b = 0xD0) then loadBinary s ⟨a :: b :: r, 0⟩ else loadSource s ⟨a :: b :: r, 0⟩ := by
  have ha := a.toNat_lt
  have hb := b.toNat_lt
  have e : encW 2 (BitVec.ofNat 16 (a.toNat + 256 * b.toNat)) = [a, b] := by
    unfold encW
    have h1 : (BitVec.ofNat 16 (a.toNat + 256 * b.toNat)).toNat = a.toNat + 256 * b.toNat := by
      rw [BitVec.toNat_ofNat]; omega
    rw [h1]
    simp only [leBytes, List.cons.injEq, and_true]
    constructor
    · apply UInt8.toNat_inj.1; simp
    · apply UInt8.toNat_inj.1; simp; omega
  have h := Reads.u16 (BitVec.ofNat 16 (a.toNat + 256 * b.toNat)) [] r
  rw [e] at h
  have hs : Rd.seek (-2) .cur ⟨a :: b :: r, 2⟩ = .ok ((), ⟨a :: b :: r, 0⟩) := Rd.seek_ok (by simp [Rd.seekTarget]) (by simp)
  have h' : Rd.u16 ⟨a :: b :: r, 0⟩ = .ok (BitVec.ofNat 16 (a.toNat + 256 * b.toNat), ⟨a :: b :: r, 2⟩) := h
  unfold load
  rw [Rd.bind_ok h', Rd.bind_ok hs]
  have ht : (BitVec.ofNat 16 (a.toNat + 256 * b.toNat)).toNat = a.toNat + 256 * b.toNat := by
    rw [BitVec.toNat_ofNat]; omega
  have hc : (0xF000 ≤ (BitVec.ofNat 16 (a.toNat + 256 * b.toNat)).toNat ∨ BitVec.ofNat 16 (a.toNat + 256 * b.toNat) = 0xD000) ↔
      (0xF0 ≤ b.toNat ∨ (a = 0 ∧ b = 0xD0)) := by
    rw [← BitVec.toNat_inj, ht, ← UInt8.toNat_inj, ← UInt8.toNat_inj]
    simp
    omega
  by_cases hd : 0xF0 ≤ b.toNat ∨ (a = 0 ∧ b = 0xD0)
  · rw [if_pos (hc.2 hd), if_pos hd]
  · rw [if_neg (fun h => hd (hc.1 h)), if_neg hd]

/-- The script that a list of chunks describes, added to a script. -/
def described (s : Script) (ps : List Piece) : Script := ps.foldl Piece.apply s

/-- C93, restricted: a compiled script is read as its chunks say, whatever other bytes the chunks have behind their content:
every mesh, animation, alias, blend, combination, disabled animation and tag is there in the order of the file, and every event
belongs to the animation before it. Chunks of other types are passed over.
Missing: an event before the first animation, a script that already has animations, arguments that are not there, and frames
that are not numbers (see the violations). -/
theorem c93_load_partial (ps : List (Piece × Bytes)) (hne : ps ≠ []) (hok : ∀ p ∈ ps, p.1.Ok)
    (hl : ∀ p ∈ ps, (p.1.enc ++ p.2).length < 2 ^ 32) (ho : Ordered (ps.map (·.1)))
    (hn : (ps.filter (·.1.isAni)).length < 2 ^ 32) (s : Script) (hs : s.animations = []) (pre : Bytes) :
    loadBinary s ⟨pre ++ fileOf ps, pre.length⟩ =
      .ok (described s (ps.map (·.1)), ⟨pre ++ fileOf ps, (pre ++ fileOf ps).length⟩) := by
  rw [loadBinary_eq ps hne s hs hok hl ho hn pre, described, List.foldl_map]

/-- C93: a compiled script is recognised as one if its first chunk has a type from F000 on, as all known ones have. -/
theorem c93_recognised_partial (p : Piece × Bytes) (ps : List (Piece × Bytes)) (ht : 0xF000 ≤ p.1.type.toNat) (s : Script) :
    load s ⟨fileOf (p :: ps), 0⟩ = loadBinary s ⟨fileOf (p :: ps), 0⟩ := by
  have e : ∃ a b r, fileOf (p :: ps) = a :: b :: r ∧ 0xF0 ≤ b.toNat := by
    refine ⟨_, _, _, rfl, ?_⟩
    have := p.1.type.isLt
    simp
    omega
  obtain ⟨a, b, r, e, h⟩ := e
  rw [e, c93_dispatch, if_pos (.inl h)]

theorem c93_known_types : ∀ t ∈ Piece.known, 0xF000 ≤ t.toNat := by simp [Piece.known]

/-- C93, restricted: a source and its compiled form give the same script.
Missing: events that are marked as attached, which only the text can say, and events of which only the compiled form keeps the
argument (see the violation). -/
theorem c93_same_partial (src : Source) (h : src.Ok) (hp : src.Plain) (a b : Byte) (r : Bytes) (hb : b.toNat < 0xF0 ∧ b ≠ 0xD0)
    (he : Ended (a :: b :: r)) (hl : lex (a :: b :: r) = src.toks)
    (ps : List (Piece × Bytes)) (hps : ps.map (·.1) = src.pieces) (hne : ps ≠ []) (hok : ∀ p ∈ ps, p.1.Ok)
    (ht : ∀ p ∈ ps, (p.1.enc ++ p.2).length < 2 ^ 32) (hn : ps.length < 2 ^ 32) (s : Script) (hs : s.animations = []) :
    ∃ x y, load s ⟨a :: b :: r, 0⟩ = .ok (src.apply s, x) ∧ load s ⟨fileOf ps, 0⟩ = .ok (src.apply s, y) := by
  obtain ⟨t, e⟩ := c75_script_partial src h (a :: b :: r) he hl s
  refine ⟨t.rs, ⟨fileOf ps, (fileOf ps).length⟩, ?_, ?_⟩
  · rw [c93_dispatch, if_neg (by rintro (h | h); exacts [absurd h (by omega), hb.2 h.2])]
    unfold loadSource
    unfold start at e
    rw [e]
  · have hk : ∀ p ∈ src.pieces, 0xF000 ≤ p.type.toNat := fun p hp => c93_known_types _ (src.types p hp)
    obtain ⟨p, qs, rfl⟩ := List.exists_cons_of_ne_nil hne
    rw [c93_recognised_partial p qs (hk _ (by rw [← hps]; simp))]
    have := c93_load_partial (p :: qs) hne hok ht (by rw [hps]; exact src.ordered)
      (Nat.lt_of_le_of_lt (List.length_filter_le _ _) hn) s hs []
    rw [hps] at this
    rw [show described s src.pieces = src.apply s from tops_apply src.tops s hp] at this
    exact this

/-- A compiled script with animations, events of several kinds, a mesh and chunks that are passed over. -/
def samplePieces : List (Piece × Bytes) :=
  let c : CommonB := ⟨b!"S_RUN", 1, b!"S_WALK", 0x3F000000, 0, b!"ME", b!"HUM.ASC"⟩
  [(.root 3 b!"HUMANS.MDS", []), (.skeleton 1 b!"HUM.ASC", [0]), (.mesh b!"ARMOR", []), (.other 0x1234, [1, 2, 3]),
   (.ani c b!"R" 0 9 0x41200000 0 0x3F800000, []), (.events 3, []), (.frames 0 b!"DEF_OPT_FRAME" [3, -4], []),
   (.tag 2 b!"DEF_CREATE_ITEM" (.two b!"ZS_HAND" b!"ITFO"), []), (.sfx 9 b!"STEP" 0x41200000 1, []),
   (.ani { c with name := b!"S_JUMP" } b!"F" 0 9 0x41200000 0 0x3F800000, []), (.pfxStop 1 2, [])]

example : samplePieces ≠ [] ∧ (∀ p ∈ samplePieces, (p.1.enc ++ p.2).length < 2 ^ 32) ∧
    (samplePieces.filter (·.1.isAni)).length < 2 ^ 32 ∧
    (described {} (samplePieces.map (·.1))).animations.map (fun a => (a.name, a.events.length, a.sfx.length, a.pfxStop.length)) =
      [(b!"S_RUN", 2, 1, 0), (b!"S_JUMP", 0, 0, 1)] := by
  decide +kernel

example : ∀ p ∈ samplePieces, p.1.Ok := by
  intro p hp
  simp only [samplePieces, List.mem_cons, List.not_mem_nil, or_false] at hp
  rcases hp with rfl | rfl | rfl | rfl | rfl | rfl | rfl | rfl | rfl | rfl | rfl
  · show NoEol _; decide
  · show NoEol _; decide
  · show NoEol _; decide
  · show (0x1234 : BitVec 16) ∉ Piece.known; decide +kernel
  · exact ⟨⟨by decide, by decide, by decide, by decide⟩, by decide⟩
  · trivial
  · exact ⟨by decide, by decide, by decide⟩
  · exact ⟨by decide, by decide, by decide, by decide, fun _ => ⟨73, b!"TFO", rfl, by decide⟩⟩
  · show NoEol _; decide
  · exact ⟨⟨by decide, by decide, by decide, by decide⟩, by decide⟩
  · trivial

example : Ordered (samplePieces.map (·.1)) := by
  refine Ordered.append (a := (samplePieces.map (·.1)).take 4) (b := (samplePieces.map (·.1)).drop 4) (Ordered.noEvents ?_)
    (Ordered.ani _ _ rfl)
  simp [samplePieces, Piece.isEvent]

/-- What `sampleSource` is compiled to meets the hypotheses of `c93_same_partial`. -/
example : sampleSource.Plain ∧ sampleSource.pieces ≠ [] ∧ sampleSource.pieces.length = 7 ∧
    (∃ a b r, sampleText = a :: b :: r ∧ b.toNat < 0xF0 ∧ b ≠ 0xD0) := by
  refine ⟨?_, by decide, by decide, ⟨77, 79, _, rfl, by decide, by decide⟩⟩
  intro t ht
  simp only [sampleSource, List.mem_cons, List.not_mem_nil, or_false] at ht
  rcases ht with rfl | rfl | rfl
  · trivial
  · intro i hi
    simp only [List.mem_cons, List.not_mem_nil, or_false] at hi
    rcases hi with rfl | rfl | rfl
    · intro e he
      simp only [List.mem_cons, List.not_mem_nil, or_false] at he
      rcases he with rfl | rfl
      · rfl
      · trivial
    · trivial
    · trivial
  · trivial

example : ∀ p ∈ sampleSource.pieces, p.Ok := by
  intro p hp
  simp only [sampleSource, Source.pieces, List.flatMap_cons, List.flatMap_nil, Top.pieces, Item.pieces, List.map_cons, List.map_nil, Event.piece,
    List.append_nil, List.cons_append, List.nil_append, List.mem_cons, List.not_mem_nil, or_false] at hp
  rcases hp with rfl | rfl | rfl | rfl | rfl | rfl | rfl
  · show NoEol _; decide
  · exact ⟨⟨by decide, by decide, by decide, by decide⟩, by decide⟩
  · exact ⟨by decide, by decide, by decide⟩
  · show NoEol _; decide
  · exact ⟨by decide, by decide⟩
  · exact ⟨⟨by decide, by decide, by decide, by decide⟩, by decide⟩
  · show NoEol _; decide

/-- C93, the rest of the claim fails: an event before the first animation is written behind the end of the list of animations. -/
theorem c93_order_violation : (load {} ⟨fileOf [(.pfxStop 1 2, [])], 0⟩).map (·.1) = .error .ub := by
  decide +kernel

/-- C93, the rest of the claim fails: if a script that has animations is filled again, the events of the file are added to the
animations that were there. -/
theorem c93_reload_violation :
    let c : CommonB := ⟨b!"NEW", 1, b!"", 0, 0, b!"M", b!"H"⟩
    (load { animations := [{ name := b!"OLD" }] } ⟨fileOf [(.ani c b!"F" 0 9 0 0 0, []), (.pfxStop 1 2, [])], 0⟩).map
      (fun r => r.1.animations.map fun a => (a.name, a.pfxStop.length)) = .ok [(b!"OLD", 1), (b!"NEW", 0)] := by
  decide +kernel

/-- C93, the rest of the claim fails: frames that are not numbers make the reader run forever; the text form of the same event is
read with the frame 0. -/
theorem c93_hang_violation :
    let c : CommonB := ⟨b!"A", 1, b!"", 0, 0, b!"M", b!"H"⟩
    (load {} ⟨fileOf [(.ani c b!"F" 0 9 0 0 0, []), (.tag 0 b!"DEF_HIT_END" (.one b!"x"), [])], 0⟩).map (·.1) = .error .hang ∧
    (load {} ⟨b!"Model (\"H\") {\naniEnum {\nani (\"A\" 1 \"A\" 0 0 M \"M\" F 0 9) {\n*eventTag (0 \"DEF_HIT_END\" \"x\")\n}\n}\n}\n", 0⟩).map
      (fun r => r.1.animations.map (fun a => a.events.map (·.frames))) = .ok [[[0]]] := by
  decide +kernel

/-- C93, the rest of the claim fails: an event whose argument is missing takes the header of the next chunk for it. -/
theorem c93_confined_violation :
    let c : CommonB := ⟨b!"A", 1, b!"", 0, 0, b!"M", b!"H"⟩
    (load {} ⟨fileOf [(.ani c b!"F" 0 9 0 0 0, []), (.tag 0 b!"DEF_INSERT_ITEM" .none, []), (.pfxStop 1 2, [])], 0⟩).map
      (fun r => r.1.animations.map (fun a => a.events.map (·.slot))) = .ok [[[0xA5, 0xF5, 8]]] := by
  decide +kernel

/-- C93, the rest of the claim fails: the two forms of an event that removes an item from a slot differ; the text form loses the
slot. And only the text form can mark an event as attached. -/
theorem c93_forms_violation :
    let c : CommonB := ⟨b!"A", 1, b!"", 0, 0, b!"M", b!"H"⟩
    (load {} ⟨b!"Model (\"H\") {\naniEnum {\nani (\"A\" 1 \"A\" 0 0 M \"M\" F 0 9) {\n*eventTag (0 \"DEF_REMOVE_ITEM\" \"ZS_HAND\" ATTACH)\n}\n}\n}\n", 0⟩).map
      (fun r => r.1.animations.map (fun a => a.events.map fun e => (e.slot, e.attached))) = .ok [[([], true)]] ∧
    (load {} ⟨fileOf [(.ani c b!"F" 0 9 0 0 0, []), (.tag 0 b!"DEF_REMOVE_ITEM" (.one b!"ZS_HAND"), [])], 0⟩).map
      (fun r => r.1.animations.map (fun a => a.events.map fun e => (e.slot, e.attached))) = .ok [[(b!"ZS_HAND", false)]] := by
  decide +kernel

end Verif.Props
