import Verif.Model.Mds
import Verif.Model.Vfs
import Verif.Base.Float

/-!
# The parser of model scripts: `src/ModelScriptDsl.cc:174-589`, `src/ModelScript.cc:49-179`
-/

namespace Verif.Mds

open Vfs (iequals)

/-- A function of the parser. -/
def P (α : Type) := Tk → Except Fail (α × Tk)

namespace P

@[inline] def pure {α} (a : α) : P α := fun t => .ok (a, t)

@[inline] def bind {α β} (p : P α) (f : α → P β) : P β := fun t =>
  match p t with
  | .ok (a, t') => f a t'
  | .error e => .error e

instance : Monad P where
  pure := P.pure
  bind := P.bind

def fail {α} (e : Fail) : P α := fun _ => .error e

end P

/-! ## The script -/

/-- `MdsEventType` (`include/zenkit/ModelScript.hh:13-36`). -/
inductive EventType where
  | unknown | itemCreate | itemInsert | itemRemove | itemDestroy | itemPlace | itemExchange | setFightMode | munitionPlace
  | munitionRemove | soundDraw | soundUndraw | meshSwap | torchDraw | torchInventory | torchDrop | hitLimb | hitDirection
  | damageMultiplier | parryFrame | optimalFrame | hitEnd | comboWindow
  deriving DecidableEq, Repr

/-- `MdsFightMode` (`include/zenkit/ModelScript.hh:65-73`). -/
inductive FightMode where
  | fist | singleHanded | dualHanded | bow | crossbow | magic | none | invalid
  deriving DecidableEq, Repr

/-- `MdsEventTag` (`include/zenkit/ModelScript.hh:133-142`). -/
structure EventTag where
  frame : BitVec 32 := 0
  type : EventType := .unknown
  slot : Bytes := []
  slot2 : Bytes := []
  item : Bytes := []
  frames : List (BitVec 32) := []
  fightMode : FightMode := .none
  attached : Bool := false
  deriving DecidableEq, Repr

/-- `MdsParticleEffect` (`include/zenkit/ModelScript.hh:146-152`). -/
structure Pfx where
  frame : BitVec 32
  index : BitVec 32
  name : Bytes
  position : Bytes
  attached : Bool
  deriving DecidableEq, Repr

/-- `MdsCameraTremor` (`include/zenkit/ModelScript.hh:156-162`). -/
structure Tremor where
  frame : BitVec 32
  field1 : BitVec 32
  field2 : BitVec 32
  field3 : BitVec 32
  field4 : BitVec 32
  deriving DecidableEq, Repr

/-- `MdsParticleEffectStop` (`include/zenkit/ModelScript.hh:166-169`). -/
structure PfxStop where
  frame : BitVec 32
  index : BitVec 32
  deriving DecidableEq, Repr

/-- `MdsSoundEffect` and `MdsSoundEffectGround` (`include/zenkit/ModelScript.hh:173-187`); the range is the pattern of a float. -/
structure Sfx where
  frame : BitVec 32
  name : Bytes
  range : BitVec 32
  emptySlot : Bool
  deriving DecidableEq, Repr

/-- `MdsMorphAnimation` (`include/zenkit/ModelScript.hh:191-195`). -/
structure Morph where
  frame : BitVec 32
  animation : Bytes
  node : Bytes
  deriving DecidableEq, Repr

/-- `AnimationDirection` (`include/zenkit/ModelScript.hh:109-116`). -/
inductive Dir where
  | forward | backward
  deriving DecidableEq, Repr

/-- `MdsAnimation` (`include/zenkit/ModelScript.hh:200-222`). -/
structure Animation where
  name : Bytes := []
  layer : BitVec 32 := 0
  next : Bytes := []
  blendIn : BitVec 32 := 0
  blendOut : BitVec 32 := 0
  flags : BitVec 8 := 0
  model : Bytes := []
  direction : Dir := .forward
  firstFrame : BitVec 32 := 0
  lastFrame : BitVec 32 := 0
  fps : BitVec 32 := 0
  speed : BitVec 32 := 0
  cvs : BitVec 32 := 0
  events : List EventTag := []
  pfx : List Pfx := []
  pfxStop : List PfxStop := []
  sfx : List Sfx := []
  sfxGround : List Sfx := []
  morph : List Morph := []
  tremors : List Tremor := []
  deriving DecidableEq, Repr

/-- `MdsAnimationAlias` (`include/zenkit/ModelScript.hh:226-235`). -/
structure Alias where
  name : Bytes
  layer : BitVec 32
  next : Bytes
  blendIn : BitVec 32
  blendOut : BitVec 32
  flags : BitVec 8
  target : Bytes
  direction : Dir
  deriving DecidableEq, Repr

/-- `MdsAnimationBlend` (`include/zenkit/ModelScript.hh:239-244`). -/
structure Blend where
  name : Bytes
  next : Bytes
  blendIn : BitVec 32
  blendOut : BitVec 32
  deriving DecidableEq, Repr

/-- `MdsAnimationCombine` (`include/zenkit/ModelScript.hh:248-257`). -/
structure Combine where
  name : Bytes
  layer : BitVec 32
  next : Bytes
  blendIn : BitVec 32
  blendOut : BitVec 32
  flags : BitVec 8
  model : Bytes
  lastFrame : BitVec 32
  deriving DecidableEq, Repr

/-- `ModelScript` (`include/zenkit/ModelScript.hh:263-286`) with `MdsSkeleton` and `MdsModelTag` (its bone). -/
structure Script where
  skeleton : Bytes := []
  disableMesh : Bool := false
  meshes : List Bytes := []
  disabled : List Bytes := []
  combinations : List Combine := []
  blends : List Blend := []
  aliases : List Alias := []
  modelTags : List Bytes := []
  animations : List Animation := []
  deriving DecidableEq, Repr

/-! ## Event tags and flags -/

/-- `event_types` (`src/ModelScript.cc:49-74`). -/
def eventTypes : List (Bytes × EventType) :=
  [(b!"DEF_CREATE_ITEM", .itemCreate), (b!"DEF_INSERT_ITEM", .itemInsert), (b!"DEF_REMOVE_ITEM", .itemRemove),
   (b!"DEF_DESTROY_ITEM", .itemDestroy), (b!"DEF_PLACE_ITEM", .itemPlace), (b!"DEF_EXCHANGE_ITEM", .itemExchange),
   (b!"DEF_FIGHTMODE", .setFightMode), (b!"DEF_PLACE_MUNITION", .munitionPlace), (b!"DEF_REMOVE_MUNITION", .munitionRemove),
   (b!"DEF_DRAWSOUND", .soundDraw), (b!"DEF_UNDRAWSOUND", .soundUndraw), (b!"DEF_SWAPMESH", .meshSwap),
   (b!"DEF_DRAWTORCH", .torchDraw), (b!"DEF_INV_TORCH", .torchInventory), (b!"DEF_DROP_TORCH", .torchDrop),
   (b!"DEF_HIT_LIMB", .hitLimb), (b!"HIT_LIMB", .hitLimb), (b!"DEF_HIT_DIR", .hitDirection), (b!"DEF_DIR", .hitDirection),
   (b!"DEF_DAM_MULTIPLY", .damageMultiplier), (b!"DEF_PAR_FRAME", .parryFrame), (b!"DEF_OPT_FRAME", .optimalFrame),
   (b!"DEF_HIT_END", .hitEnd), (b!"DEF_WINDOW", .comboWindow)]

/-- The fight mode (`src/ModelScript.cc:103-118`). -/
def fightMode (mode : Bytes) : FightMode :=
  if mode = b!"FIST" then .fist
  else if mode = b!"1H" ∨ mode = b!"1h" then .singleHanded
  else if mode = b!"2H" ∨ mode = b!"2h" then .dualHanded
  else if mode = b!"BOW" then .bow
  else if mode = b!"CBOW" then .crossbow
  else if mode = b!"MAG" then .magic
  else .none

/-- `stream >> fr` of an `int32_t` from a string stream that is good: the new value, what is left, `eof()` and `fail()`.
At the end of the text nothing is stored; a text that is no number stores zero, one that is too large the bound. -/
def extractInt (s : Bytes) (fr : BitVec 32) : BitVec 32 × Bytes × Bool × Bool :=
  let t := s.dropWhile isSpace
  if t = [] then (fr, [], true, true)
  else
    let sg := signOf t
    let ds := sg.2.takeWhile isDigit
    let r := sg.2.dropWhile isDigit
    let i : Int := if sg.1 then -(digitsVal ds : Int) else digitsVal ds
    if ds = [] then (0, r, r.isEmpty, true)
    else if i < -2 ^ 31 then (0x80000000, r, r.isEmpty, true)
    else if 2 ^ 31 ≤ i then (0x7FFFFFFF, r, r.isEmpty, true)
    else (BitVec.ofInt 32 i, r, r.isEmpty, false)

/-- The loop over the frames (`src/ModelScript.cc:134-139`). Every turn but the last reads a character. -/
def framesLoop : Nat → Bytes → BitVec 32 → List (BitVec 32) → Except Fail (List (BitVec 32))
  | 0, _, _, _ => .error .hang
  | fuel + 1, s, fr, acc =>
    match extractInt s fr with
    | (v, r, eof, fail) => if eof || fail then .ok (acc ++ [v]) else framesLoop fuel r v (acc ++ [v])

/-- `make_event_tag` (`src/ModelScript.cc:77-148`). -/
def makeEventTag (frame : BitVec 32) (type : Bytes) (a b : Option Bytes) (attached : Bool) : Except Fail EventTag :=
  let tp := (eventTypes.lookup type).getD .unknown
  let evt : EventTag := { frame := frame, type := tp }
  match tp with
  | .itemCreate | .itemExchange => .ok { evt with slot := a.getD [], item := b.getD [], attached := attached }
  | .itemInsert | .munitionPlace => .ok { evt with slot := a.getD [], attached := attached }
  | .setFightMode => .ok { evt with fightMode := fightMode (a.getD []), attached := attached }
  | .meshSwap => .ok { evt with slot := a.getD [], slot2 := b.getD [], attached := attached }
  | .hitLimb => .ok { evt with slot := a.getD [], attached := attached }
  | .damageMultiplier | .parryFrame | .optimalFrame | .hitEnd | .comboWindow =>
    match framesLoop ((a.getD []).length + 1) (a.getD []) 0 [] with
    | .error e => .error e
    | .ok fs => .ok { evt with frames := fs, attached := attached }
  | _ => .ok { evt with attached := attached }

/-- `animation_flags_from_string` (`src/ModelScript.cc:150-179`). -/
def flagsOf (s : Bytes) : BitVec 8 :=
  s.foldl (fun f c =>
    if c = 77 then f ||| 1 else if c = 82 then f ||| 2 else if c = 69 then f ||| 4 else if c = 70 then f ||| 8
    else if c = 73 then f ||| 16 else if c = 80 then f ||| 32 else f) 0

/-! ## Helpers -/

/-- `throw ScriptSyntaxError`, a `ParserError`. -/
def syntaxError {α} : P α := P.fail (.throw .parser)

/-- `_m_stream.next()` -/
def pNext : P Token := next

/-- `_m_stream.backtrack()` -/
def pBack : P Unit := fun t => match backtrack t with
  | .error e => .error e
  | .ok t => .ok ((), t)

/-- `_m_stream.token_value()` -/
def pValue : P Bytes := fun t => .ok (t.value, t)

/-- `MdsParser::eof` (`src/ModelScriptDsl.hh:71-73`). -/
def pEof : P Bool := fun t => .ok (decide (t.rs.pos ≥ t.rs.data.length), t)

/-- `MdsParser::maybe` (`src/ModelScriptDsl.cc:247-255`). -/
def maybe (kind : Token) : P Bool := do
  let k ← pNext
  if k ≠ kind then do
    pBack
    return false
  else return true

/-- `MdsParser::expect` (`src/ModelScriptDsl.cc:177-183`). -/
def expect (kind : Token) : P Unit := do
  if ← maybe kind then return () else syntaxError

/-- `MdsParser::expect_string` (`src/ModelScriptDsl.cc:185-188`). -/
def expectString : P Bytes := do
  expect .string
  pValue

/-- `MdsParser::expect_keyword` (`src/ModelScriptDsl.cc:190-193`). -/
def expectKeyword : P Bytes := do
  expect .keyword
  pValue

/-- `MdsParser::maybe_keyword` (`src/ModelScriptDsl.cc:195-198`). -/
def maybeAnyKeyword : P (Option Bytes) := do
  if ← maybe .keyword then return some (← pValue) else return none

/-- `MdsParser::expect_keyword(value)` (`src/ModelScriptDsl.cc:200-206`). -/
def expectThisKeyword (value : Bytes) : P Unit := do
  expect .keyword
  let v ← pValue
  if iequals v value then return () else syntaxError

/-- `std::stof`: no number, one that is too large or one that is too small are exceptions. -/
def stof (s : Bytes) : Except Fail (BitVec 32) :=
  match (FText.strtof s).1 with
  | .num v false => .ok v
  | _ => .error (.throw .stdConversion)

/-- `std::stoi` -/
def stoi (s : Bytes) : Except Fail (BitVec 32) :=
  match strtol s with
  | none => .error (.throw .stdConversion)
  | some (i, _) => if -2 ^ 31 ≤ i ∧ i < 2 ^ 31 then .ok (BitVec.ofInt 32 i) else .error (.throw .stdConversion)

/-- A computation that does not touch the tokenizer. -/
def lift {α} (x : Except Fail α) : P α := fun t => match x with
  | .error e => .error e
  | .ok a => .ok (a, t)

/-- `MdsParser::maybe_number` (`src/ModelScriptDsl.cc:265-273`). -/
def maybeNumber : P (Option (BitVec 32)) := do
  let n ← pNext
  if n ≠ .integer ∧ n ≠ .float then do
    pBack
    return none
  else do
    let v ← pValue
    return some (← lift (stof v))

/-- `MdsParser::expect_number` (`src/ModelScriptDsl.cc:208-214`). -/
def expectNumber : P (BitVec 32) := do
  match ← maybeNumber with
  | none => syntaxError
  | some v => return v

/-- `MdsParser::expect_int` (`src/ModelScriptDsl.cc:216-219`). -/
def expectInt : P (BitVec 32) := do
  expect .integer
  lift (stoi (← pValue))

/-- `MdsParser::expect_flags` (`src/ModelScriptDsl.cc:221-227`). -/
def expectFlags : P (BitVec 8) := do
  let kw ← expectKeyword
  let _ ← maybe .colon
  return flagsOf kw

/-- `haystack.find(needle) != npos` -/
def contains (needle : Bytes) : Bytes → Bool
  | [] => needle.isEmpty
  | c :: r => needle.isPrefixOf (c :: r) || contains needle r

/-- `MdsParser::maybe_flags` (`src/ModelScriptDsl.cc:229-245`). -/
def maybeFlags : P (Option (BitVec 8)) := do
  match ← maybeAnyKeyword with
  | none => return none
  | some kw =>
    if contains b!"ani" kw || contains b!"model" kw then do
      pBack
      return none
    else do
      let _ ← maybe .colon
      return some (flagsOf kw)

/-- `MdsParser::maybe_int` (`src/ModelScriptDsl.cc:257-263`). -/
def maybeInt : P (Option (BitVec 32)) := do
  if ← maybe .integer then do
    let v ← pValue
    return some (← lift (stoi v))
  else return none

/-- `MdsParser::maybe_string` (`src/ModelScriptDsl.cc:275-281`). -/
def maybeString : P (Option Bytes) := do
  if ← maybe .string then return some (← pValue) else return none

/-- `MdsParser::maybe_keyword(value)` (`src/ModelScriptDsl.cc:283-294`). -/
def maybeKeyword (value : Bytes) : P Bool := do
  if ← maybe .keyword then do
    let v ← pValue
    if iequals v value then return true
    else do
      pBack
      return false
  else return false

/-- `MdsParser::maybe_named` (`src/ModelScriptDsl.cc:296-308`). -/
def maybeNamed (name : Bytes) : P (Option (BitVec 32)) := do
  if ← maybeKeyword name then do
    expect .colon
    return some (← expectNumber)
  else return none

/-! ## Events -/

/-- The pattern of `1000.0f`. -/
def f1000 : BitVec 32 := 0x447A0000
/-- The pattern of `25.0f`. -/
def f25 : BitVec 32 := 0x41C80000
/-- The pattern of `1.0f`. -/
def f1 : BitVec 32 := 0x3F800000

/-- `a || b` of two functions of the parser. -/
def orElse (a b : P Bool) : P Bool := do
  if ← a then return true else b

/-- `MdsParser::parse_eventTag` (`src/ModelScriptDsl.cc:416-423`). -/
def parseEventTag : P EventTag := do
  let frame ← maybeInt
  let type ← expectString
  let a ← maybeString
  let b ← maybeString
  let attach ← maybeKeyword b!"ATTACH"
  lift (makeEventTag (frame.getD 0) type a b attach)

/-- `MdsParser::parse_eventSFX` (`src/ModelScriptDsl.cc:425-434`). -/
def parseEventSFX : P Sfx := do
  let frame ← expectInt
  let name ← expectString
  let range ← maybeNamed b!"R"
  let slot ← orElse (maybeKeyword b!"EMPTY_SLOT") (maybeKeyword b!"EMTPY_SLOT")
  return ⟨frame, name, range.getD f1000, slot⟩

/-- `MdsParser::parse_eventPFX` (`src/ModelScriptDsl.cc:436-450`). -/
def parseEventPFX : P Pfx := do
  let frame ← expectInt
  let index ← maybeInt
  let name ← expectString
  let position ← expectString
  let attached ← orElse (maybeKeyword b!"ATTACH") (maybe .string)
  return ⟨frame, index.getD 0, name, position, attached⟩

/-- `MdsParser::parse_eventSFXGrnd` (`src/ModelScriptDsl.cc:452-459`). -/
def parseEventSFXGrnd : P Sfx := do
  let frame ← expectInt
  let name ← expectString
  let _ ← maybeKeyword b!"EMPTY_SLOT"
  return ⟨frame, name, f1000, false⟩

/-- `MdsParser::parse_eventPFXStop` (`src/ModelScriptDsl.cc:461-466`). -/
def parseEventPFXStop : P PfxStop := do
  let frame ← expectInt
  let index ← expectInt
  return ⟨frame, index⟩

/-- `MdsParser::parse_eventMMStartAni` (`src/ModelScriptDsl.cc:468-474`). -/
def parseEventMMStartAni : P Morph := do
  let frame ← expectInt
  let animation ← expectString
  let node ← maybeString
  return ⟨frame, animation, node.getD []⟩

/-- `MdsParser::parse_eventCamTremor` (`src/ModelScriptDsl.cc:476-484`). -/
def parseEventCamTremor : P Tremor := do
  let frame ← expectInt
  let a ← expectInt
  let b ← expectInt
  let c ← expectInt
  let d ← expectInt
  return ⟨frame, a, b, c, d⟩

/-- One turn of the loop of `parse_events` (`src/ModelScriptDsl.cc:388-408`); `none` when the loop is left. -/
def parseEvent (ani : Animation) (kw : Bytes) : P (Option Animation) :=
  if iequals kw b!"*eventTag" then do return some { ani with events := ani.events ++ [← parseEventTag] }
  else if iequals kw b!"*eventSFX" then do return some { ani with sfx := ani.sfx ++ [← parseEventSFX] }
  else if iequals kw b!"*eventSFXGrnd" then do return some { ani with sfxGround := ani.sfxGround ++ [← parseEventSFXGrnd] }
  else if iequals kw b!"*eventPFX" then do return some { ani with pfx := ani.pfx ++ [← parseEventPFX] }
  else if iequals kw b!"*eventPFXStop" then do return some { ani with pfxStop := ani.pfxStop ++ [← parseEventPFXStop] }
  else if iequals kw b!"*eventMMStartAni" then do return some { ani with morph := ani.morph ++ [← parseEventMMStartAni] }
  else if iequals kw b!"*eventCamTremor" then do return some { ani with tremors := ani.tremors ++ [← parseEventCamTremor] }
  else do
    pBack
    return none

/-- `MdsParser::parse_events` (`src/ModelScriptDsl.cc:382-410`). -/
def parseEvents : Nat → Animation → P Animation
  | 0, _ => P.fail .hang
  | fuel + 1, ani => do
    if ← pEof then return ani
    else if ← orElse (maybe .rbrace) (maybe .endOfFile) then return ani
    else do
      let kw ← expectKeyword
      match ← parseEvent ani kw with
      | none => return ani
      | some ani => parseEvents fuel ani

/-! ## Animations -/

/-- The number of turns allowed to a loop: more than there are characters. -/
def turns : P Nat := fun t => .ok (t.rs.data.length + 2, t)

/-- `MdsParser::parse_ani` (`src/ModelScriptDsl.cc:486-515`). -/
def parseAni : P Animation := do
  let name ← expectString
  let layer ← expectInt
  let nxt ← expectString
  let blendIn ← expectNumber
  let blendOut ← expectNumber
  let flags ← expectFlags
  let model ← expectString
  let kw ← expectKeyword
  if !iequals kw b!"F" && !iequals kw b!"R" then syntaxError
  else do
    let first ← expectInt
    let last ← expectInt
    let fps ← maybeNamed b!"FPS"
    let cvs ← maybeNamed b!"CVS"
    let _ ← maybe .lbrace
    let n ← turns
    parseEvents n
      { name := name, layer := layer, next := nxt, blendIn := blendIn, blendOut := blendOut, flags := flags, model := model,
        direction := if iequals kw b!"R" then .backward else .forward, firstFrame := first, lastFrame := last,
        fps := fps.getD f25, speed := 0, cvs := cvs.getD f1 }

/-- An optional block that is not read (`src/ModelScriptDsl.cc:528-531`, `568-570`, `412-414`). -/
def skipBlock : P Unit := do
  if ← maybe .lbrace then do
    let n ← turns
    (fun t => match ignoreBlock n t with
      | .error e => .error e
      | .ok t => .ok ((), t) : P Unit)
  else return ()

/-- `MdsParser::parse_aniComb` (`src/ModelScriptDsl.cc:517-534`). -/
def parseAniComb : P Combine := do
  let name ← expectString
  let layer ← expectInt
  let nxt ← expectString
  let blendIn ← expectNumber
  let blendOut ← expectNumber
  let flags ← expectFlags
  let model ← expectString
  let last ← expectInt
  skipBlock
  return ⟨name, layer, nxt, blendIn, blendOut, flags, model, last⟩

/-- The optional direction (`src/ModelScriptDsl.cc:547-551`). -/
def maybeDir : P Dir := do
  if ← maybeKeyword b!"F" then return .forward
  else if ← maybeKeyword b!"R" then return .backward
  else return .forward

/-- `MdsParser::parse_aniAlias` (`src/ModelScriptDsl.cc:536-554`). -/
def parseAniAlias : P Alias := do
  let name ← expectString
  let layer ← expectInt
  let nxt ← expectString
  let blendIn ← expectNumber
  let blendOut ← expectNumber
  let flags ← expectFlags
  let target ← expectString
  let dir ← maybeDir
  return ⟨name, layer, nxt, blendIn, blendOut, flags, target, dir⟩

/-- `MdsParser::parse_aniBlend` (`src/ModelScriptDsl.cc:556-573`). -/
def parseAniBlend : P Blend := do
  let name ← expectString
  let _ ← maybeInt
  let nxt ← expectString
  let blendIn ← maybeNumber
  let blendOut ← maybeNumber
  let _ ← maybeFlags
  skipBlock
  return ⟨name, nxt, blendIn.getD 0, blendOut.getD 0⟩

/-- `MdsParser::parse_modelTag` (`src/ModelScriptDsl.cc:579-589`). -/
def parseModelTag : P Bytes := do
  let type ← expectString
  if iequals type b!"DEF_HIT_LIMB" then expectString else syntaxError

/-- One turn of the loop of `parse_aniEnum` (`src/ModelScriptDsl.cc:361-378`). -/
def parseItem (s : Script) (kw : Bytes) : P Script :=
  if iequals kw b!"ani" then do return { s with animations := s.animations ++ [← parseAni] }
  else if iequals kw b!"aniBlend" then do return { s with blends := s.blends ++ [← parseAniBlend] }
  else if iequals kw b!"aniAlias" then do return { s with aliases := s.aliases ++ [← parseAniAlias] }
  else if iequals kw b!"aniComb" then do return { s with combinations := s.combinations ++ [← parseAniComb] }
  else if iequals kw b!"aniDisable" then do return { s with disabled := s.disabled ++ [← expectString] }
  else if iequals kw b!"modelTag" then do return { s with modelTags := s.modelTags ++ [← parseModelTag] }
  else do
    (fun t => match nextLine t with
      | .error e => .error e
      | .ok t => .ok ((), t) : P Unit)
    return s

/-- The loop of `parse_aniEnum` (`src/ModelScriptDsl.cc:356-379`). -/
def enumLoop : Nat → Script → P Script
  | 0, _ => P.fail .hang
  | fuel + 1, s => do
    if ← pEof then return s
    else if ← orElse (maybe .rbrace) (maybe .endOfFile) then return s
    else do
      let kw ← expectKeyword
      let s ← parseItem s kw
      enumLoop fuel s

/-- `MdsParser::parse_aniEnum` (`src/ModelScriptDsl.cc:353-380`). -/
def parseAniEnum (s : Script) : P Script := do
  expect .lbrace
  let n ← turns
  enumLoop n s

/-- `MdsParser::parse_meshAndTree` (`src/ModelScriptDsl.cc:342-347`). -/
def parseMeshAndTree : P (Bytes × Bool) := do
  let name ← expectString
  let disable ← maybeKeyword b!"DONT_USE_MESH"
  return (name, disable)

/-- One turn of the loop of `parse_script` (`src/ModelScriptDsl.cc:324-336`); `none` when the loop is left. -/
def parseTop (s : Script) (kw : Bytes) : P (Option Script) :=
  if iequals kw b!"meshAndTree" then do
    let (name, disable) ← parseMeshAndTree
    return some { s with skeleton := name, disableMesh := disable }
  else if iequals kw b!"registerMesh" then do return some { s with meshes := s.meshes ++ [← expectString] }
  else if iequals kw b!"aniEnum" then do return some (← parseAniEnum s)
  else return none

/-- The loop of `parse_script` (`src/ModelScriptDsl.cc:319-337`). -/
def topLoop : Nat → Script → P Script
  | 0, _ => P.fail .hang
  | fuel + 1, s => do
    if ← pEof then return s
    else if ← orElse (maybe .rbrace) (maybe .endOfFile) then return s
    else do
      let kw ← expectKeyword
      match ← parseTop s kw with
      | none => return s
      | some s => topLoop fuel s

/-- `MdsParser::parse_script` (`src/ModelScriptDsl.cc:313-340`): the script that is filled is changed in place. -/
def parseScript (s : Script) : P Script := do
  expectThisKeyword b!"Model"
  let _ ← expectString
  expect .lbrace
  let n ← turns
  topLoop n s

end Verif.Mds
