import Verif.Spec.Mds
import Verif.Model.MdsParser

/-!
# The language of model scripts

The source of a script as a tree, its tokens, and the script it describes. Keywords are in any letter case; numbers are any
text for the value. The syntax is that of the remarks in `include/zenkit/ModelScript.hh`.
-/

namespace Verif.Mds

open Vfs (iequals)

abbrev Tok := Token × Bytes

/-- A string. -/
def str (s : Bytes) : Tok := (.string, s)

/-- A keyword in any letter case. -/
structure Kw (name : Bytes) where
  txt : Bytes
  ok : iequals txt name = true

def Kw.tok {n : Bytes} (k : Kw n) : Tok := (.keyword, k.txt)

/-- The keyword as it is. -/
def kw (n : Bytes) (h : iequals n n = true := by decide) : Kw n := ⟨n, h⟩

/-- An integer literal. -/
structure IntLit where
  txt : Bytes
  val : BitVec 32
  ok : strtol txt = some (val.toInt, [])

def IntLit.tok (i : IntLit) : Tok := (.integer, i.txt)

/-- A number, with or without a dot. -/
structure NumLit where
  dot : Bool
  txt : Bytes
  val : BitVec 32
  ok : (FText.strtof txt).1 = .num val false

def NumLit.tok (i : NumLit) : Tok := (if i.dot then .float else .integer, i.txt)

def colonTok : Tok := (.colon, [])
def openTok : Tok := (.lbrace, [])
def closeTok : Tok := (.rbrace, [])

/-- `NAME:number` -/
structure Named (name : Bytes) where
  key : Kw name
  num : NumLit

def Named.toks {n : Bytes} (k : Named n) : List Tok := [k.key.tok, colonTok, k.num.tok]

/-- The tokens of an optional part. -/
def opt {α : Type} (f : α → List Tok) : Option α → List Tok
  | none => []
  | some a => f a

/-! ## Events -/

/-- Up to two arguments. -/
inductive Args where
  | none
  | one (a : Bytes)
  | two (a b : Bytes)

def Args.toks : Args → List Tok
  | .none => []
  | .one a => [str a]
  | .two a b => [str a, str b]

def Args.first : Args → Bytes
  | .none => []
  | .one a => a
  | .two a _ => a

def Args.second : Args → Bytes
  | .two _ b => b
  | _ => []

/-- The type of an event by its name. -/
def typeOf (n : Bytes) : EventType :=
  if n = b!"DEF_CREATE_ITEM" then .itemCreate else if n = b!"DEF_INSERT_ITEM" then .itemInsert
  else if n = b!"DEF_REMOVE_ITEM" then .itemRemove else if n = b!"DEF_DESTROY_ITEM" then .itemDestroy
  else if n = b!"DEF_PLACE_ITEM" then .itemPlace else if n = b!"DEF_EXCHANGE_ITEM" then .itemExchange
  else if n = b!"DEF_FIGHTMODE" then .setFightMode
  else if n = b!"DEF_PLACE_MUNITION" then .munitionPlace else if n = b!"DEF_REMOVE_MUNITION" then .munitionRemove
  else if n = b!"DEF_DRAWSOUND" then .soundDraw else if n = b!"DEF_UNDRAWSOUND" then .soundUndraw
  else if n = b!"DEF_SWAPMESH" then .meshSwap
  else if n = b!"DEF_DRAWTORCH" then .torchDraw else if n = b!"DEF_INV_TORCH" then .torchInventory
  else if n = b!"DEF_DROP_TORCH" then .torchDrop
  else if n = b!"DEF_HIT_LIMB" ∨ n = b!"HIT_LIMB" then .hitLimb
  else if n = b!"DEF_HIT_DIR" ∨ n = b!"DEF_DIR" then .hitDirection
  else if n = b!"DEF_DAM_MULTIPLY" then .damageMultiplier else if n = b!"DEF_PAR_FRAME" then .parryFrame
  else if n = b!"DEF_OPT_FRAME" then .optimalFrame else if n = b!"DEF_HIT_END" then .hitEnd
  else if n = b!"DEF_WINDOW" then .comboWindow
  else .unknown

/-- The events that have a list of frames. -/
def FrameType (t : EventType) : Prop := t ∈ [EventType.damageMultiplier, .parryFrame, .optimalFrame, .hitEnd, .comboWindow]

instance : DecidablePred FrameType := fun t => by unfold FrameType; infer_instance

/-- Numbers with a space between them. -/
def framesText : List (BitVec 32) → Bytes
  | [] => []
  | [v] => decInt v.toInt
  | v :: vs => decInt v.toInt ++ 32 :: framesText vs

/-- The fight modes that have a name. -/
def modeName : FightMode → List Bytes
  | .fist => [b!"FIST"]
  | .singleHanded => [b!"1H", b!"1h"]
  | .dualHanded => [b!"2H", b!"2h"]
  | .bow => [b!"BOW"]
  | .crossbow => [b!"CBOW"]
  | .magic => [b!"MAG"]
  | _ => []

/-- The fight mode of a name. -/
def modeOf (n : Bytes) : FightMode :=
  ([FightMode.fist, .singleHanded, .dualHanded, .bow, .crossbow, .magic].find? (fun m => decide (n ∈ modeName m))).getD .none

/-- An event without frames: the arguments by type. -/
def tagOf (frame : BitVec 32) (type : Bytes) (args : Args) (attached : Bool) : EventTag :=
  let t := typeOf type
  { frame := frame, type := t, attached := attached
    slot := if t ∈ [EventType.itemCreate, .itemExchange, .itemInsert, .munitionPlace, .meshSwap, .hitLimb] then args.first else []
    slot2 := if t = .meshSwap then args.second else []
    item := if t ∈ [EventType.itemCreate, .itemExchange] then args.second else []
    fightMode := if t = .setFightMode then modeOf args.first else .none
    frames := [] }

/-- How a particle effect is marked as attached. -/
inductive Attach where
  | none
  | key (k : Kw b!"ATTACH")
  | string (s : Bytes)

def Attach.toks : Attach → List Tok
  | .none => []
  | .key k => [k.tok]
  | .string s => [str s]

/-- The keyword for an empty slot, or its misspelling. -/
inductive Slot where
  | none
  | right (k : Kw b!"EMPTY_SLOT")
  | wrong (k : Kw b!"EMTPY_SLOT")

def Slot.toks : Slot → List Tok
  | .none => []
  | .right k => [k.tok]
  | .wrong k => [k.tok]

inductive Event where
  | tag (key : Kw b!"*eventTag") (frame : Option IntLit) (type : Bytes) (args : Args) (attach : Option (Kw b!"ATTACH"))
    (h : ¬ FrameType (typeOf type))
  | frames (key : Kw b!"*eventTag") (frame : Option IntLit) (type : Bytes) (vals : List (BitVec 32)) (extra : Option Bytes)
    (attach : Option (Kw b!"ATTACH")) (h : FrameType (typeOf type)) (hv : vals ≠ [])
  | sfx (key : Kw b!"*eventSFX") (frame : IntLit) (name : Bytes) (range : Option (Named b!"R")) (slot : Slot)
  | sfxGround (key : Kw b!"*eventSFXGrnd") (frame : IntLit) (name : Bytes) (slot : Option (Kw b!"EMPTY_SLOT"))
  | pfx (key : Kw b!"*eventPFX") (frame : IntLit) (index : Option IntLit) (name position : Bytes) (attach : Attach)
  | pfxStop (key : Kw b!"*eventPFXStop") (frame index : IntLit)
  | morph (key : Kw b!"*eventMMStartAni") (frame : IntLit) (animation : Bytes) (node : Option Bytes)
  | tremor (key : Kw b!"*eventCamTremor") (frame a b c d : IntLit)

def Event.toks : Event → List Tok
  | .tag k f t as at_ _ => k.tok :: (opt (fun i => [i.tok]) f ++ (str t :: (as.toks ++ opt (fun k => [k.tok]) at_)))
  | .frames k f t vs e at_ _ _ =>
    k.tok :: (opt (fun i => [i.tok]) f ++ (str t :: str (framesText vs) :: (opt (fun s => [str s]) e ++ opt (fun k => [k.tok]) at_)))
  | .sfx k f n r s => k.tok :: f.tok :: str n :: (opt Named.toks r ++ s.toks)
  | .sfxGround k f n s => k.tok :: f.tok :: str n :: opt (fun k => [k.tok]) s
  | .pfx k f i n p a => k.tok :: f.tok :: (opt (fun i => [i.tok]) i ++ (str n :: str p :: a.toks))
  | .pfxStop k f i => [k.tok, f.tok, i.tok]
  | .morph k f a n => k.tok :: f.tok :: str a :: opt (fun s => [str s]) n
  | .tremor k f a b c d => [k.tok, f.tok, a.tok, b.tok, c.tok, d.tok]

/-- The value of an optional number. -/
def valOr {α : Type} (d : BitVec 32) (f : α → BitVec 32) : Option α → BitVec 32
  | none => d
  | some a => f a

/-- The event is added to the animation. -/
def Event.apply (a : Animation) : Event → Animation
  | .tag _ f t as at_ _ => { a with events := a.events ++ [tagOf (valOr 0 (·.val) f) t as at_.isSome] }
  | .frames _ f t vs _ at_ _ _ =>
    { a with events := a.events ++ [{ frame := valOr 0 (·.val) f, type := typeOf t, frames := vs, attached := at_.isSome }] }
  | .sfx _ f n r s =>
    { a with sfx := a.sfx ++ [⟨f.val, n, valOr 0x447A0000 (·.num.val) r, match s with | .none => false | _ => true⟩] }
  | .sfxGround _ f n _ => { a with sfxGround := a.sfxGround ++ [⟨f.val, n, 0x447A0000, false⟩] }
  | .pfx _ f i n p at_ =>
    { a with pfx := a.pfx ++ [⟨f.val, valOr 0 (·.val) i, n, p, match at_ with | .none => false | _ => true⟩] }
  | .pfxStop _ f i => { a with pfxStop := a.pfxStop ++ [⟨f.val, i.val⟩] }
  | .morph _ f an n => { a with morph := a.morph ++ [⟨f.val, an, n.getD []⟩] }
  | .tremor _ f w x y z => { a with tremors := a.tremors ++ [⟨f.val, w.val, x.val, y.val, z.val⟩] }

/-! ## Animations -/

/-- The flags of a text: a bit for every letter that occurs. -/
def flagBits (s : Bytes) : BitVec 8 :=
  (if 77 ∈ s then 1 else 0) ||| (if 82 ∈ s then 2 else 0) ||| (if 69 ∈ s then 4 else 0) ||| (if 70 ∈ s then 8 else 0) |||
    (if 73 ∈ s then 16 else 0) ||| (if 80 ∈ s then 32 else 0)

/-- Flags, which may be followed by a colon. -/
structure Flags where
  txt : Bytes
  colon : Bool

def Flags.toks (f : Flags) : List Tok := (.keyword, f.txt) :: if f.colon then [colonTok] else []

def dirName : Dir → Bytes
  | .forward => b!"F"
  | .backward => b!"R"

/-- What `ani`, `aniAlias` and `aniComb` have in common. -/
structure Common where
  name : Bytes
  layer : IntLit
  next : Bytes
  blendIn : NumLit
  blendOut : NumLit
  flags : Flags
  model : Bytes

def Common.toks (c : Common) : List Tok :=
  str c.name :: c.layer.tok :: str c.next :: c.blendIn.tok :: c.blendOut.tok :: (c.flags.toks ++ [str c.model])

/-- A direction with its keyword. -/
structure DirKw where
  dir : Dir
  key : Kw (dirName dir)

/-- `ani(...)` with events, in braces or not. -/
structure AniSrc where
  common : Common
  dir : DirKw
  first : IntLit
  last : IntLit
  fps : Option (Named b!"FPS")
  cvs : Option (Named b!"CVS")
  braces : Bool
  events : List Event

def AniSrc.toks (a : AniSrc) : List Tok :=
  a.common.toks ++ (a.dir.key.tok :: a.first.tok :: a.last.tok :: (opt Named.toks a.fps ++ (opt Named.toks a.cvs ++
    ((if a.braces then [openTok] else []) ++ (a.events.flatMap Event.toks ++ if a.braces then [closeTok] else [])))))

def AniSrc.value (a : AniSrc) : Animation :=
  a.events.foldl Event.apply
    { name := a.common.name, layer := a.common.layer.val, next := a.common.next, blendIn := a.common.blendIn.val,
      blendOut := a.common.blendOut.val, flags := flagBits a.common.flags.txt, model := a.common.model, direction := a.dir.dir,
      firstFrame := a.first.val, lastFrame := a.last.val, fps := valOr 0x41C80000 (·.num.val) a.fps, speed := 0,
      cvs := valOr 0x3F800000 (·.num.val) a.cvs }

/-- A block of any tokens but a closing brace. -/
structure Block where
  content : List Tok
  ok : ∀ k ∈ content, k.1 ≠ .rbrace

def Block.toks (b : Block) : List Tok := openTok :: (b.content ++ [closeTok])

/-- Up to two numbers. -/
inductive Nums where
  | none
  | one (a : NumLit)
  | two (a b : NumLit)

def Nums.toks : Nums → List Tok
  | .none => []
  | .one a => [a.tok]
  | .two a b => [a.tok, b.tok]

structure BlendSrc where
  name : Bytes
  layer : Option IntLit
  next : Bytes
  nums : Nums
  flags : Option Flags
  block : Option Block

def BlendSrc.toks (b : BlendSrc) : List Tok :=
  str b.name :: (opt (fun i => [i.tok]) b.layer ++ (str b.next :: (b.nums.toks ++ (opt Flags.toks b.flags ++ opt Block.toks b.block))))

def BlendSrc.value (b : BlendSrc) : Blend :=
  ⟨b.name, b.next, match b.nums with | .none => 0 | .one a => a.val | .two a _ => a.val, match b.nums with | .two _ b => b.val | _ => 0⟩

inductive Item where
  | ani (key : Kw b!"ani") (a : AniSrc)
  | blend (key : Kw b!"aniBlend") (b : BlendSrc)
  | alias_ (key : Kw b!"aniAlias") (c : Common) (dir : Option DirKw)
  | comb (key : Kw b!"aniComb") (c : Common) (last : IntLit) (block : Option Block)
  | disable (key : Kw b!"aniDisable") (name : Bytes)
  | modelTag (key : Kw b!"modelTag") (type : Kw b!"DEF_HIT_LIMB") (bone : Bytes)

/-- The text of the keyword of an item. -/
def Item.keyTxt : Item → Bytes
  | .ani k _ | .blend k _ | .alias_ k _ _ | .comb k _ _ _ | .disable k _ | .modelTag k _ _ => k.txt

/-- The tokens behind the keyword of an item. -/
def Item.args : Item → List Tok
  | .ani _ a => a.toks
  | .blend _ b => b.toks
  | .alias_ _ c d => c.toks ++ opt (fun d : DirKw => [d.key.tok]) d
  | .comb _ c l b => c.toks ++ (l.tok :: opt Block.toks b)
  | .disable _ n => [str n]
  | .modelTag _ t b => [str t.txt, str b]

def Item.toks (i : Item) : List Tok := (.keyword, i.keyTxt) :: i.args

/-- The item is added to the script. -/
def Item.apply (s : Script) : Item → Script
  | .ani _ a => { s with animations := s.animations ++ [a.value] }
  | .blend _ b => { s with blends := s.blends ++ [b.value] }
  | .alias_ _ c d =>
    { s with aliases := s.aliases ++ [⟨c.name, c.layer.val, c.next, c.blendIn.val, c.blendOut.val, flagBits c.flags.txt, c.model,
        (match d with | none => .forward | some d => d.dir)⟩] }
  | .comb _ c l _ =>
    { s with combinations := s.combinations ++
        [⟨c.name, c.layer.val, c.next, c.blendIn.val, c.blendOut.val, flagBits c.flags.txt, c.model, l.val⟩] }
  | .disable _ n => { s with disabled := s.disabled ++ [n] }
  | .modelTag _ _ b => { s with modelTags := s.modelTags ++ [b] }

/-- A keyword that the parser does not take for the flags of a blend: it has `ani` or `model` in small letters. -/
def NoFlags (k : Bytes) : Prop := b!"ani" <:+: k ∨ b!"model" <:+: k

/-- What may follow an item, `next` being the keyword of the next item if there is one:
the events of an animation need braces if no other item follows;
the flags of a blend may not look like a keyword; and if it has neither flags nor a block, the next keyword may not
look like flags. -/
def Item.Ok (next : Option Bytes) : Item → Prop
  | .ani _ a => a.braces = true ∨ next ≠ none
  | .blend _ b =>
    (∀ f, b.flags = some f → ¬ NoFlags f.txt) ∧
      (b.flags = none → b.block = none → ∀ k, next = some k → NoFlags k)
  | _ => True

def ItemsOk : List Item → Prop
  | [] => True
  | i :: is => i.Ok (is.head?.map Item.keyTxt) ∧ ItemsOk is

/-- What stands in the outer braces. -/
inductive Top where
  | meshAndTree (key : Kw b!"meshAndTree") (name : Bytes) (dont : Option (Kw b!"DONT_USE_MESH"))
  | registerMesh (key : Kw b!"registerMesh") (name : Bytes)
  | aniEnum (key : Kw b!"aniEnum") (items : List Item)

def Top.toks : Top → List Tok
  | .meshAndTree k n d => k.tok :: str n :: opt (fun k => [k.tok]) d
  | .registerMesh k n => [k.tok, str n]
  | .aniEnum k is => k.tok :: openTok :: (is.flatMap Item.toks ++ [closeTok])

def Top.apply (s : Script) : Top → Script
  | .meshAndTree _ n d => { s with skeleton := n, disableMesh := d.isSome }
  | .registerMesh _ n => { s with meshes := s.meshes ++ [n] }
  | .aniEnum _ is => is.foldl Item.apply s

def Top.Ok : Top → Prop
  | .aniEnum _ is => ItemsOk is
  | _ => True

/-- A model script: `Model("name") { ... }`, and anything behind it. -/
structure Source where
  key : Kw b!"Model"
  name : Bytes
  tops : List Top
  rest : List Tok

def Source.toks (s : Source) : List Tok :=
  s.key.tok :: str s.name :: openTok :: (s.tops.flatMap Top.toks ++ (closeTok :: s.rest))

/-- What the source says, added to a script. -/
def Source.apply (script : Script) (s : Source) : Script := s.tops.foldl Top.apply script

def Source.Ok (s : Source) : Prop := ∀ t ∈ s.tops, t.Ok

end Verif.Mds
