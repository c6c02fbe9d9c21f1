import Verif.Model.MdsParser
import Verif.Model.Chunk

/-!
# Compiled model scripts: `src/ModelScript.cc:182-455`
-/

namespace Verif.Mds

/-- The script that is filled and `ani_index` (`src/ModelScript.cc:182`). -/
abbrev MsbSt := Script × BitVec 32

/-- `script.animations[ani_index]` is changed: a write behind the end of the vector is undefined. -/
def atAni (st : MsbSt) (f : Animation → Animation) : Rd (MsbSt × Bool) :=
  if st.2.toNat < st.1.animations.length then
    return (({ st.1 with animations := st.1.animations.modify st.2.toNat f }, st.2), false)
  else Rd.fail .ub

/-- `find('R') == 0` (`src/ModelScript.cc:209-210, 229-230`). -/
def dirOf (s : Bytes) : Dir := if s.head? = some 82 then .backward else .forward

/-- The loop over the frames (`src/ModelScript.cc:366-369`): it only looks at `eof()`. If the stream fails before its end, the last
number is added again and again. -/
def framesLoopB : Nat → Bytes → BitVec 32 → List (BitVec 32) → Except Fail (List (BitVec 32))
  | 0, _, _, _ => .error .hang
  | fuel + 1, s, fr, acc =>
    match extractInt s fr with
    | (v, r, eof, fail) =>
      if eof then .ok (acc ++ [v])
      else if fail then .error .hang
      else framesLoopB fuel r v (acc ++ [v])

/-- The arguments of an event tag by type (`src/ModelScript.cc:311-375`). -/
def msbArgs (evt : EventTag) : Rd EventTag :=
  match evt.type with
  | .itemCreate | .itemExchange => do
    let slot ← Rd.line true
    let item ← Rd.line true
    return { evt with slot := slot, item := item }
  | .itemInsert | .munitionPlace => do return { evt with slot := ← Rd.line true }
  | .setFightMode => do return { evt with fightMode := fightMode (← Rd.line true) }
  | .meshSwap => do
    let slot ← Rd.line true
    let slot2 ← Rd.line true
    return { evt with slot := slot, slot2 := slot2 }
  | .hitLimb | .hitDirection | .soundDraw | .soundUndraw | .munitionRemove | .itemDestroy | .torchInventory | .itemRemove => do
    return { evt with slot := ← Rd.line true }
  | .damageMultiplier | .parryFrame | .optimalFrame | .hitEnd | .comboWindow => do
    let frames ← Rd.line true
    match framesLoopB (frames.length + 1) frames 0 [] with
    | .error e => Rd.fail e
    | .ok fs => return { evt with frames := fs }
  | .unknown | .itemPlace | .torchDraw | .torchDrop => return evt

/-- `EVENT_TAG` (`src/ModelScript.cc:299-378`). -/
def msbTag (st : MsbSt) : Rd (MsbSt × Bool) := do
  let frame ← Rd.u32
  let type ← Rd.line false
  let evt ← msbArgs { frame := frame, type := (eventTypes.lookup type).getD .unknown }
  atAni st fun a => { a with events := a.events ++ [evt] }

/-- `ANIMATION` (`src/ModelScript.cc:199-218`). `++ani_index` wraps. -/
def msbAni (st : MsbSt) : Rd (MsbSt × Bool) := do
  let name ← Rd.line false
  let layer ← Rd.u32
  let nxt ← Rd.line false
  let blendIn ← Rd.u32
  let blendOut ← Rd.u32
  let flags ← Rd.line false
  let model ← Rd.line false
  let dir ← Rd.line false
  let first ← Rd.u32
  let last ← Rd.u32
  let fps ← Rd.u32
  let speed ← Rd.u32
  let cvs ← Rd.u32
  let a : Animation :=
    { name := name, layer := layer, next := nxt, blendIn := blendIn, blendOut := blendOut, flags := flagsOf flags, model := model,
      direction := dirOf dir, firstFrame := first, lastFrame := last, fps := fps, speed := speed, cvs := cvs }
  return (({ st.1 with animations := st.1.animations ++ [a] }, st.2 + 1), false)

/-- `ANIMATION_ALIAS` (`src/ModelScript.cc:219-232`). -/
def msbAlias (st : MsbSt) : Rd (MsbSt × Bool) := do
  let name ← Rd.line false
  let layer ← Rd.u32
  let nxt ← Rd.line false
  let blendIn ← Rd.u32
  let blendOut ← Rd.u32
  let flags ← Rd.line false
  let target ← Rd.line false
  let dir ← Rd.line false
  return (({ st.1 with aliases := st.1.aliases ++ [⟨name, layer, nxt, blendIn, blendOut, flagsOf flags, target, dirOf dir⟩] }, st.2), false)

/-- `ANIMATION_BLEND` (`src/ModelScript.cc:233-241`). -/
def msbBlend (st : MsbSt) : Rd (MsbSt × Bool) := do
  let name ← Rd.line false
  let nxt ← Rd.line false
  let blendIn ← Rd.u32
  let blendOut ← Rd.u32
  return (({ st.1 with blends := st.1.blends ++ [⟨name, nxt, blendIn, blendOut⟩] }, st.2), false)

/-- `ANIMATION_COMBINE` (`src/ModelScript.cc:242-254`). -/
def msbCombine (st : MsbSt) : Rd (MsbSt × Bool) := do
  let name ← Rd.line false
  let layer ← Rd.u32
  let nxt ← Rd.line false
  let blendIn ← Rd.u32
  let blendOut ← Rd.u32
  let flags ← Rd.line false
  let model ← Rd.line false
  let last ← Rd.u32
  return (({ st.1 with combinations := st.1.combinations ++ [⟨name, layer, nxt, blendIn, blendOut, flagsOf flags, model, last⟩] }, st.2), false)

/-- `EVENT_CAMERA_TREMOR` (`src/ModelScript.cc:258-267`). -/
def msbTremor (st : MsbSt) : Rd (MsbSt × Bool) := do
  let frame ← Rd.u32
  let a ← Rd.u32
  let b ← Rd.u32
  let c ← Rd.u32
  let d ← Rd.u32
  atAni st fun x => { x with tremors := x.tremors ++ [⟨frame, a, b, c, d⟩] }

/-- The fields of `EVENT_SFX` and `EVENT_SFX_GROUND` (`src/ModelScript.cc:268-285`). -/
def msbSfx : Rd Sfx := do
  let frame ← Rd.u32
  let name ← Rd.line false
  let range ← Rd.u32
  let slot ← Rd.u32
  return ⟨frame, name, range, decide (slot ≠ 0)⟩

/-- `EVENT_PFX` (`src/ModelScript.cc:379-388`). -/
def msbPfx (st : MsbSt) : Rd (MsbSt × Bool) := do
  let frame ← Rd.u32
  let index ← Rd.u32
  let name ← Rd.line false
  let position ← Rd.line false
  let attached ← Rd.u32
  atAni st fun x => { x with pfx := x.pfx ++ [⟨frame, index, name, position, decide (attached ≠ 0)⟩] }

/-- `EVENT_PFX_STOP` (`src/ModelScript.cc:389-395`). -/
def msbPfxStop (st : MsbSt) : Rd (MsbSt × Bool) := do
  let frame ← Rd.u32
  let index ← Rd.u32
  atAni st fun x => { x with pfxStop := x.pfxStop ++ [⟨frame, index⟩] }

/-- `EVENT_MM_ANI` (`src/ModelScript.cc:396-405`). -/
def msbMorph (st : MsbSt) : Rd (MsbSt × Bool) := do
  let frame ← Rd.u32
  let animation ← Rd.line false
  let node ← Rd.line false
  let _ ← Rd.u32
  let _ ← Rd.u32
  atAni st fun x => { x with morph := x.morph ++ [⟨frame, animation, node⟩] }

/-- `MODEL_TAG` (`src/ModelScript.cc:286-298`). -/
def msbModelTag (st : MsbSt) : Rd (MsbSt × Bool) := do
  let _ ← Rd.u32
  let _ ← Rd.line false
  let bone ← Rd.line true
  return (({ st.1 with modelTags := st.1.modelTags ++ [bone] }, st.2), false)

/-- The handler of the chunks (`src/ModelScript.cc:187-432`). -/
def msbChunk (st : MsbSt) (type : BitVec 16) : Rd (MsbSt × Bool) :=
  if type = 0xF300 then do
    let disable ← Rd.u32
    let name ← Rd.line false
    return (({ st.1 with skeleton := name, disableMesh := decide (disable ≠ 0) }, st.2), false)
  else if type = 0xF400 then do
    let name ← Rd.line true
    return (({ st.1 with meshes := st.1.meshes ++ [name] }, st.2), false)
  else if type = 0xF520 then msbAni st
  else if type = 0xF530 then msbAlias st
  else if type = 0xF540 then msbBlend st
  else if type = 0xF570 then msbCombine st
  else if type = 0xF580 then do
    let name ← Rd.line false
    return (({ st.1 with disabled := st.1.disabled ++ [name] }, st.2), false)
  else if type = 0xF5AA then msbTremor st
  else if type = 0xF5A1 then do
    let e ← msbSfx
    atAni st fun x => { x with sfx := x.sfx ++ [e] }
  else if type = 0xF5A2 then do
    let e ← msbSfx
    atAni st fun x => { x with sfxGround := x.sfxGround ++ [e] }
  else if type = 0xF590 then msbModelTag st
  else if type = 0xF5A3 then msbTag st
  else if type = 0xF5A4 then msbPfx st
  else if type = 0xF5A5 then msbPfxStop st
  else if type = 0xF5A9 then msbMorph st
  else if type = 0xF000 then do
    let _ ← Rd.u32
    let _ ← Rd.line false
    return (st, false)
  else if type = 0xF100 then do
    let _ ← Date.load
    let _ ← Rd.line false
    return (st, false)
  else if type = 0xF5A0 then do
    let _ ← Rd.u32
    return (st, false)
  else return (st, false)

/-- `ModelScript::load_binary` (`src/ModelScript.cc:182-434, 448-450`). -/
def loadBinary (s : Script) : Rd Script := do
  let r ← readChunked (simpleCb msbChunk) (s, (-1 : BitVec 32))
  return r.1

/-- `ModelScript::load_source` (`src/ModelScript.cc:452-455`). -/
def loadSource (s : Script) : Rd Script := fun r =>
  match parseScript s ⟨r, 0, []⟩ with
  | .error e => .error e
  | .ok (s, t) => .ok (s, t.rs)

/-- `ModelScript::load` (`src/ModelScript.cc:436-446`). -/
def load (s : Script) : Rd Script := do
  let t ← Rd.u16
  Rd.seek (-2) .cur
  if 0xF000 ≤ t.toNat ∨ t = 0xD000 then loadBinary s else loadSource s

end Verif.Mds
