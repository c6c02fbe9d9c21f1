import Verif.Spec.MdsParser
import Verif.Spec.Chunk
import Verif.Lemmas.Chunk
import Verif.Lemmas.Line
import Verif.Model.StreamTypes

/-!
# Compiled model scripts

The chunks of a compiled script, their bytes, and the script they describe.
-/

namespace Verif.Mds

/-- A text as a line. -/
def ln (s : Bytes) : Bytes := s ++ [10]

/-- What animations, aliases and combinations have in common; the flags are letters. -/
structure CommonB where
  name : Bytes
  layer : BitVec 32
  next : Bytes
  blendIn : BitVec 32
  blendOut : BitVec 32
  flags : Bytes
  model : Bytes

def CommonB.enc (c : CommonB) : Bytes :=
  ln c.name ++ (encW 4 c.layer ++ (ln c.next ++ (encW 4 c.blendIn ++ (encW 4 c.blendOut ++ (ln c.flags ++ ln c.model)))))

/-- A chunk of a compiled script. -/
inductive Piece where
  | skeleton (disable : BitVec 32) (name : Bytes)
  | mesh (name : Bytes)
  | ani (c : CommonB) (dir : Bytes) (first last fps speed cvs : BitVec 32)
  | alias_ (c : CommonB) (dir : Bytes)
  | blend (name next : Bytes) (blendIn blendOut : BitVec 32)
  | comb (c : CommonB) (last : BitVec 32)
  | disable (name : Bytes)
  | modelTag (frame : BitVec 32) (type bone : Bytes)
  | tag (frame : BitVec 32) (type : Bytes) (args : Args)
  | frames (frame : BitVec 32) (type : Bytes) (vals : List (BitVec 32))
  | sfx (frame : BitVec 32) (name : Bytes) (range slot : BitVec 32)
  | sfxGround (frame : BitVec 32) (name : Bytes) (range slot : BitVec 32)
  | pfx (frame index : BitVec 32) (name position : Bytes) (attached : BitVec 32)
  | pfxStop (frame index : BitVec 32)
  | morph (frame : BitVec 32) (animation node : Bytes) (x y : BitVec 32)
  | tremor (frame a b c d : BitVec 32)
  | root (x : BitVec 32) (path : Bytes)
  | source (date : Date) (path : Bytes)
  | events (x : BitVec 32)
  | other (type : BitVec 16)

def Args.enc : Args → Bytes
  | .none => []
  | .one a => ln a
  | .two a b => ln a ++ ln b

namespace Piece

/-- The types of chunks that mean something. -/
def known : List (BitVec 16) :=
  [0xF300, 0xF400, 0xF520, 0xF530, 0xF540, 0xF570, 0xF580, 0xF590, 0xF5A3, 0xF5A1, 0xF5A2, 0xF5A4, 0xF5A5, 0xF5A9, 0xF5AA, 0xF000, 0xF100, 0xF5A0]

def type : Piece → BitVec 16
  | skeleton .. => 0xF300
  | mesh .. => 0xF400
  | ani .. => 0xF520
  | alias_ .. => 0xF530
  | blend .. => 0xF540
  | comb .. => 0xF570
  | disable .. => 0xF580
  | modelTag .. => 0xF590
  | tag .. => 0xF5A3
  | frames .. => 0xF5A3
  | sfx .. => 0xF5A1
  | sfxGround .. => 0xF5A2
  | pfx .. => 0xF5A4
  | pfxStop .. => 0xF5A5
  | morph .. => 0xF5A9
  | tremor .. => 0xF5AA
  | root .. => 0xF000
  | source .. => 0xF100
  | events .. => 0xF5A0
  | other t => t

def enc : Piece → Bytes
  | skeleton d n => encW 4 d ++ ln n
  | mesh n => ln n
  | ani c d f l fps s cvs => c.enc ++ (ln d ++ (encW 4 f ++ (encW 4 l ++ (encW 4 fps ++ (encW 4 s ++ encW 4 cvs)))))
  | alias_ c d => c.enc ++ ln d
  | blend n x a b => ln n ++ (ln x ++ (encW 4 a ++ encW 4 b))
  | comb c l => c.enc ++ encW 4 l
  | disable n => ln n
  | modelTag f t b => encW 4 f ++ (ln t ++ ln b)
  | tag f t as => encW 4 f ++ (ln t ++ as.enc)
  | frames f t vs => encW 4 f ++ (ln t ++ ln (framesText vs))
  | sfx f n r s => encW 4 f ++ (ln n ++ (encW 4 r ++ encW 4 s))
  | sfxGround f n r s => encW 4 f ++ (ln n ++ (encW 4 r ++ encW 4 s))
  | pfx f i n p a => encW 4 f ++ (encW 4 i ++ (ln n ++ (ln p ++ encW 4 a)))
  | pfxStop f i => encW 4 f ++ encW 4 i
  | morph f a n x y => encW 4 f ++ (ln a ++ (ln n ++ (encW 4 x ++ encW 4 y)))
  | tremor f a b c d => encW 4 f ++ (encW 4 a ++ (encW 4 b ++ (encW 4 c ++ encW 4 d)))
  | root x p => encW 4 x ++ ln p
  | source d p => d.enc ++ ln p
  | events x => encW 4 x
  | other _ => []

end Piece

/-- The events of which the compiled form keeps the first argument as a slot. -/
def SlotType (t : EventType) : Prop :=
  t ∈ [EventType.itemCreate, .itemExchange, .itemInsert, .munitionPlace, .meshSwap, .hitLimb, .hitDirection, .soundDraw, .soundUndraw,
    .munitionRemove, .itemDestroy, .torchInventory, .itemRemove]

instance : DecidablePred SlotType := fun t => by unfold SlotType; infer_instance

/-- The events with two arguments. -/
def TwoArgs (t : EventType) : Prop := t ∈ [EventType.itemCreate, .itemExchange, .meshSwap]

instance : DecidablePred TwoArgs := fun t => by unfold TwoArgs; infer_instance

/-- An event without frames: the arguments by type. -/
def tagB (frame : BitVec 32) (type : Bytes) (args : Args) : EventTag :=
  let t := typeOf type
  { frame := frame, type := t
    slot := if SlotType t then args.first else []
    slot2 := if t = .meshSwap then args.second else []
    item := if t = .itemCreate ∨ t = .itemExchange then args.second else []
    fightMode := if t = .setFightMode then modeOf args.first else .none }

/-- The last animation is changed. -/
def onLast (f : Animation → Animation) : List Animation → List Animation
  | [] => []
  | [a] => [f a]
  | a :: b :: as => a :: onLast f (b :: as)

def Script.last (f : Animation → Animation) (s : Script) : Script := { s with animations := onLast f s.animations }

/-- The letter R stands for backward. -/
def dirB (d : Bytes) : Dir :=
  match d with
  | 82 :: _ => .backward
  | _ => .forward

/-- What a chunk adds to a script; events go to the last animation. -/
def Piece.apply (s : Script) : Piece → Script
  | .skeleton d n => { s with skeleton := n, disableMesh := d ≠ 0 }
  | .mesh n => { s with meshes := s.meshes ++ [n] }
  | .ani c d f l fps sp cvs =>
    { s with animations := s.animations ++
      [{ name := c.name, layer := c.layer, next := c.next, blendIn := c.blendIn, blendOut := c.blendOut, flags := flagBits c.flags,
         model := c.model, direction := dirB d, firstFrame := f, lastFrame := l, fps := fps, speed := sp, cvs := cvs }] }
  | .alias_ c d =>
    { s with aliases := s.aliases ++ [⟨c.name, c.layer, c.next, c.blendIn, c.blendOut, flagBits c.flags, c.model, dirB d⟩] }
  | .blend n x a b => { s with blends := s.blends ++ [⟨n, x, a, b⟩] }
  | .comb c l =>
    { s with combinations := s.combinations ++ [⟨c.name, c.layer, c.next, c.blendIn, c.blendOut, flagBits c.flags, c.model, l⟩] }
  | .disable n => { s with disabled := s.disabled ++ [n] }
  | .modelTag _ _ b => { s with modelTags := s.modelTags ++ [b] }
  | .tag f t as => s.last fun a => { a with events := a.events ++ [tagB f t as] }
  | .frames f t vs => s.last fun a => { a with events := a.events ++ [{ frame := f, type := typeOf t, frames := vs }] }
  | .sfx f n r sl => s.last fun a => { a with sfx := a.sfx ++ [⟨f, n, r, sl ≠ 0⟩] }
  | .sfxGround f n r sl => s.last fun a => { a with sfxGround := a.sfxGround ++ [⟨f, n, r, sl ≠ 0⟩] }
  | .pfx f i n p at_ => s.last fun a => { a with pfx := a.pfx ++ [⟨f, i, n, p, at_ ≠ 0⟩] }
  | .pfxStop f i => s.last fun a => { a with pfxStop := a.pfxStop ++ [⟨f, i⟩] }
  | .morph f an n _ _ => s.last fun a => { a with morph := a.morph ++ [⟨f, an, n⟩] }
  | .tremor f w x y z => s.last fun a => { a with tremors := a.tremors ++ [⟨f, w, x, y, z⟩] }
  | .root .. | .source .. | .events _ | .other _ => s

def CommonB.Ok (c : CommonB) : Prop := NoEol c.name ∧ NoEol c.next ∧ NoEol c.flags ∧ NoEol c.model

/-- The arguments an event of the type needs are there; the second of two is not empty and does not start with white space. -/
def Args.OkFor (t : EventType) : Args → Prop
  | .none => ¬ SlotType t ∧ t ≠ .setFightMode
  | .one a => NoEol a ∧ ¬ TwoArgs t
  | .two a b => NoEol a ∧ NoEol b ∧ (TwoArgs t → ∃ c r, b = c :: r ∧ c ∉ [32, 9, 13, 10, 11, 12])

def Piece.Ok : Piece → Prop
  | .skeleton _ n | .mesh n | .disable n | .sfx _ n _ _ | .sfxGround _ n _ _ | .root _ n | .source _ n => NoEol n
  | .ani c d _ _ _ _ _ | .alias_ c d => c.Ok ∧ NoEol d
  | .comb c _ => c.Ok
  | .blend n x _ _ => NoEol n ∧ NoEol x
  | .modelTag _ t b => NoEol t ∧ NoEol b
  | .tag _ t as => NoEol t ∧ ¬ FrameType (typeOf t) ∧ as.OkFor (typeOf t)
  | .frames _ t vs => NoEol t ∧ FrameType (typeOf t) ∧ vs ≠ []
  | .pfx _ _ n p _ => NoEol n ∧ NoEol p
  | .morph _ a n _ _ => NoEol a ∧ NoEol n
  | .pfxStop .. | .tremor .. | .events _ => True
  | .other t => t ∉ Piece.known

/-- Whether a chunk is an event of an animation. -/
def Piece.isEvent : Piece → Bool
  | .tag .. | .frames .. | .sfx .. | .sfxGround .. | .pfx .. | .pfxStop .. | .morph .. | .tremor .. => true
  | _ => false

def Piece.isAni : Piece → Bool
  | .ani .. => true
  | _ => false

/-- Every event has an animation before it. -/
def Ordered (ps : List Piece) : Prop :=
  ∀ pre p post, ps = pre ++ p :: post → p.isEvent = true → ∃ a ∈ pre, a.isAni = true

/-- The bytes of a file: a chunk for every piece, which may have more bytes than needed. -/
def fileOf (ps : List (Piece × Bytes)) : Bytes := ps.flatMap fun p => chunkBytes p.1.type (p.1.enc ++ p.2)

/-! ## The compiled form of a source -/

def flag (b : Bool) : BitVec 32 := if b then 1 else 0

def Event.piece : Event → Piece
  | .tag _ f t as _ _ => .tag (valOr 0 (·.val) f) t as
  | .frames _ f t vs _ _ _ _ => .frames (valOr 0 (·.val) f) t vs
  | .sfx _ f n r s => .sfx f.val n (valOr 0x447A0000 (·.num.val) r) (flag (match s with | .none => false | _ => true))
  | .sfxGround _ f n _ => .sfxGround f.val n 0x447A0000 0
  | .pfx _ f i n p at_ => .pfx f.val (valOr 0 (·.val) i) n p (flag (match at_ with | .none => false | _ => true))
  | .pfxStop _ f i => .pfxStop f.val i.val
  | .morph _ f an n => .morph f.val an (n.getD []) 0 0
  | .tremor _ f w x y z => .tremor f.val w.val x.val y.val z.val

def Common.bin (c : Common) : CommonB := ⟨c.name, c.layer.val, c.next, c.blendIn.val, c.blendOut.val, c.flags.txt, c.model⟩

def Item.pieces : Item → List Piece
  | .ani _ a =>
    .ani a.common.bin (dirName a.dir.dir) a.first.val a.last.val (valOr 0x41C80000 (·.num.val) a.fps) 0 (valOr 0x3F800000 (·.num.val) a.cvs) ::
      a.events.map Event.piece
  | .blend _ b => [.blend b.name b.next b.value.blendIn b.value.blendOut]
  | .alias_ _ c d => [.alias_ c.bin (dirName (match d with | none => .forward | some d => d.dir))]
  | .comb _ c l _ => [.comb c.bin l.val]
  | .disable _ n => [.disable n]
  | .modelTag _ t b => [.modelTag 0 t.txt b]

def Top.pieces : Top → List Piece
  | .meshAndTree _ n d => [.skeleton (flag d.isSome) n]
  | .registerMesh _ n => [.mesh n]
  | .aniEnum _ is => is.flatMap Item.pieces

def Source.pieces (s : Source) : List Piece := s.tops.flatMap Top.pieces

/-- An event that says the same in both forms: it is not marked as attached, and it has no argument where only the compiled form
keeps one. -/
def Event.Plain : Event → Prop
  | .tag _ _ t as at_ _ =>
    at_ = none ∧ (typeOf t ∈ [EventType.hitDirection, .soundDraw, .soundUndraw, .munitionRemove, .itemDestroy, .torchInventory, .itemRemove] →
      as.first = [])
  | .frames _ _ _ _ _ at_ _ _ => at_ = none
  | _ => True

def Item.Plain : Item → Prop
  | .ani _ a => ∀ e ∈ a.events, e.Plain
  | _ => True

def Top.Plain : Top → Prop
  | .aniEnum _ is => ∀ i ∈ is, i.Plain
  | _ => True

def Source.Plain (s : Source) : Prop := ∀ t ∈ s.tops, t.Plain

end Verif.Mds
