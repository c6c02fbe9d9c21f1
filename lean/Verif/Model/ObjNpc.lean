import Verif.Model.ObjMisc

/-! # `VNpc`: `src/vobs/Misc.cc:252-597` -/

namespace Verif.Obj

open Verif.Ar

/-- `VNpc::News` (`include/zenkit/vobs/Misc.hh`). -/
structure News where
  told : Bool := false
  spreadTime : F32 := 0
  spreadType : BitVec 32 := 0
  newsId : BitVec 32 := 0
  gossip : Bool := false
  guildVictim : Bool := false
  witnessName : Bytes := []
  offenderName : Bytes := []
  victimName : Bytes := []
  deriving DecidableEq, Repr

/-- One round of the loop (`src/vobs/Misc.cc:338-350`). -/
def News.load {P} : Ld P News := do
  let told ← Ld.bool
  let spreadTime ← Ld.float
  let spreadType ← Ld.int
  let newsId ← Ld.int
  let gossip ← Ld.bool
  let guildVictim ← Ld.bool
  let witnessName ← Ld.str
  let offenderName ← Ld.str
  let victimName ← Ld.str
  return { told, spreadTime, spreadType, newsId, gossip, guildVictim, witnessName, offenderName, victimName }

/-- One round of the loop (`src/vobs/Misc.cc:504-514`). -/
def News.save (n : News) : List Field :=
  [fBool b!"told" n.told, fFloat b!"spread_time" n.spreadTime, fInt b!"spreadType" n.spreadType, fInt b!"news_id" n.newsId,
   fBool b!"gossip" n.gossip, fBool b!"guildvictim" n.guildVictim, fStr b!"witnessName" n.witnessName,
   fStr b!"offenderName" n.offenderName, fStr b!"victimName" n.victimName]

/-- `VNpc::Slot` (`include/zenkit/vobs/Misc.hh`). -/
structure Slot (P : Type) where
  used : Bool := false
  name : Bytes := []
  item : Option P := none
  inInventory : Bool := false
  deriving DecidableEq, Repr

/-- One round of the loop (`src/vobs/Misc.cc:386-395`). -/
def Slot.load {P} : Ld P (Slot P) := do
  let used ← Ld.bool
  let name ← Ld.str
  let item ← Ld.opt used none (Ld.objAs .oCItem)
  let inInventory ← Ld.opt used false Ld.bool
  return { used, name, item, inInventory }

/-- One round of the loop (`src/vobs/Misc.cc:547-555`). -/
def Slot.save (s : Slot Nat) : List Field :=
  [fBool b!"used" s.used, fStr b!"name" s.name] ++ fIf s.used [fObj b!"vob" s.item, fBool b!"inInv" s.inInventory]

/-- `VNpc` (`include/zenkit/vobs/Misc.hh`). Arrays are lists; their lengths are those of the declarations. -/
structure VNpc (P : Type) where
  base : VObj P := {}
  npcInstance : Bytes := []
  modelScale : Vec3 := Vec3.zero
  modelFatness : F32 := 0
  overlays : List Bytes := []
  flags : BitVec 32 := 0
  guild : BitVec 32 := 0
  guildTrue : BitVec 32 := 0
  level : BitVec 32 := 0
  xp : BitVec 32 := 0
  xpNextLevel : BitVec 32 := 0
  lp : BitVec 32 := 0
  talents : List (Option P) := []
  fightTactic : BitVec 32 := 0
  fightMode : BitVec 32 := 0
  wounded : Bool := false
  mad : Bool := false
  madTime : BitVec 32 := 0
  player : Bool := false
  attributes : List (BitVec 32) := List.replicate 8 0
  hitChance : List (BitVec 32) := List.replicate 4 0
  missions : List (BitVec 32) := List.replicate 5 0
  startAiState : Bytes := []
  aivar : List (BitVec 32) := List.replicate 100 0
  scriptWaypoint : Bytes := []
  attitude : BitVec 32 := 0
  attitudeTemp : BitVec 32 := 0
  nameNr : BitVec 32 := 0
  moveLock : Bool := false
  packed : List Bytes := List.replicate 9 []
  news : List News := []
  items : List (Option P) := []
  slots : List (Slot P) := []
  currentStateValid : Bool := false
  currentStateName : Bytes := []
  currentStateIndex : BitVec 32 := 0
  currentStateIsRoutine : Bool := false
  nextStateValid : Bool := false
  nextStateName : Bytes := []
  nextStateIndex : BitVec 32 := 0
  nextStateIsRoutine : Bool := false
  lastAiState : BitVec 32 := 0
  hasRoutine : Bool := false
  routineChanged : Bool := false
  routineOverlay : Bool := false
  routineOverlayCount : BitVec 32 := 0
  walkmodeRoutine : BitVec 32 := 0
  weaponmodeRoutine : Bool := false
  startNewRoutine : Bool := false
  aiStateDriven : BitVec 32 := 0
  aiStatePos : Vec3 := Vec3.zero
  currentRoutine : Bytes := []
  respawn : Bool := false
  respawnTime : BitVec 32 := 0
  protection : List (BitVec 32) := List.replicate 8 0
  bsInterruptableOverride : BitVec 32 := 0
  npcType : BitVec 32 := 0
  spellMana : BitVec 32 := 0
  carryVob : Option P := none
  enemy : Option P := none
  deriving DecidableEq, Repr

/-- `var_count` (`src/vobs/Misc.cc:323, 483`). -/
def VNpc.varCount (c : Ctx) : Nat := if c.g2 then 100 else 50

/-- The loop over `packed` in Gothic 2 (`src/vobs/Misc.cc:362-370`): the array before, and the rest of the string. `it` is set to
the semicolon that was found, not behind it. -/
def VNpc.unpack : List Bytes → Bytes → List Bytes
  | [], _ => []
  | _ :: olds, s =>
    s.takeWhile (· ≠ 0x3B) :: (if s.dropWhile (· ≠ 0x3B) = [] then olds else unpack olds (s.dropWhile (· ≠ 0x3B)))

/-- `pack` (`src/vobs/Misc.cc:525-532`). -/
def VNpc.pack (l : List Bytes) : Bytes := (l.flatMap (· ++ b!";")).dropLast

/-- One round of the loop over the items (`src/vobs/Misc.cc:376-382`): the flags of a null item cannot be read. -/
def VNpc.loadItem {P} (env : Env P) : Ld P (Option P) := do
  match ← Ld.objAs .oCItem with
  | none => .fail .ub
  | some a =>
    let _ ← Ld.opt (env.flag a) 0 Ld.int
    return some a

/-- One round of the loop over the items (`src/vobs/Misc.cc:537-544`). -/
def VNpc.saveItem (flag : Nat → Bool) (p : Option Nat × Nat) : Except Fail (List Field) :=
  match p.1 with
  | none => .error .ub
  | some a => .ok (fObj (b!"item" ++ dec p.2) (some a) :: fIf (flag a) [fInt (b!"shortKey" ++ dec p.2) 0])

/-- `VNpc::load` up to the talents (`src/vobs/Misc.cc:273-297`). The function is split here, since it is long. -/
def VNpc.load1 {P} (c : Ctx) (env : Env P) (o : VNpc P) : Ld P (VNpc P) := do
  let base ← VObj.load c env o.base
  let npcInstance ← Ld.str
  let modelScale ← Ld.vec3
  let modelFatness ← Ld.float
  let overlayCount ← Ld.int
  let overlays ← Ld.times (Ld.rounds overlayCount) Ld.str
  let flags ← Ld.int
  let guild ← Ld.int
  let guildTrue ← Ld.int
  let level ← Ld.int
  let xp ← Ld.int
  let xpNextLevel ← Ld.int
  let lp ← Ld.int
  let talentCount ← Ld.int
  let talents ← Ld.sized talentCount (Ld.objAs .oCNpcTalent)
  return { o with
    base, npcInstance, modelScale, modelFatness, flags, guild, guildTrue, level, xp, xpNextLevel, lp, talents
    overlays := o.overlays ++ overlays }

/-- `VNpc::load` up to the news (`src/vobs/Misc.cc:299-350`). -/
def VNpc.load2 {P} (c : Ctx) (o : VNpc P) : Ld P (VNpc P) := do
  let fightTactic ← Ld.int
  let fightMode ← Ld.int
  let wounded ← Ld.bool
  let mad ← Ld.bool
  let madTime ← Ld.int
  let player ← Ld.bool
  let attributes ← Ld.times 8 Ld.int
  let hitChance ← Ld.opt c.g2 o.hitChance (Ld.times 4 Ld.int)
  let missions ← Ld.times 5 Ld.int
  let startAiState ← Ld.str
  let vars ← Ld.raw (VNpc.varCount c * 4) (Rd.times Rd.u32 (VNpc.varCount c))
  let scriptWaypoint ← Ld.str
  let attitude ← Ld.int
  let attitudeTemp ← Ld.int
  let nameNr ← Ld.int
  let _ ← Ld.raw 4 (pure ())
  let newsCount ← Ld.int
  let news ← Ld.times (Ld.rounds newsCount) News.load
  return { o with
    fightTactic, fightMode, wounded, mad, madTime, player, attributes, hitChance, missions, startAiState, scriptWaypoint
    attitude, attitudeTemp, nameNr
    aivar := vars ++ o.aivar.drop (VNpc.varCount c)
    news := o.news ++ news }

/-- `VNpc::load` up to the slots (`src/vobs/Misc.cc:352-395`). -/
def VNpc.load3 {P} (c : Ctx) (env : Env P) (o : VNpc P) : Ld P (VNpc P) := do
  let carryVob ← Ld.objVob env
  let enemy ← Ld.objVob env
  let moveLock ← Ld.bool
  let packed ← (if c.g2 then do return VNpc.unpack o.packed (← Ld.str) else Ld.times 9 Ld.str)
  let itemCount ← Ld.int
  let items ← Ld.sized itemCount (VNpc.loadItem env)
  let slotCount ← Ld.int
  let slots ← Ld.times slotCount.toNat Slot.load
  return { o with carryVob, enemy, moveLock, packed, items, slots }

/-- The rest of `VNpc::load` (`src/vobs/Misc.cc:397-428`). -/
def VNpc.load4 {P} (c : Ctx) (o : VNpc P) : Ld P (VNpc P) := do
  let currentStateValid ← Ld.bool
  let currentStateName ← Ld.str
  let currentStateIndex ← Ld.int
  let currentStateIsRoutine ← Ld.bool
  let nextStateValid ← Ld.bool
  let nextStateName ← Ld.str
  let nextStateIndex ← Ld.int
  let nextStateIsRoutine ← Ld.bool
  let lastAiState ← Ld.int
  let hasRoutine ← Ld.bool
  let routineChanged ← Ld.bool
  let routineOverlay ← Ld.bool
  let routineOverlayCount ← Ld.int
  let walkmodeRoutine ← Ld.int
  let weaponmodeRoutine ← Ld.bool
  let startNewRoutine ← Ld.bool
  let aiStateDriven ← Ld.int
  let aiStatePos ← Ld.vec3
  let currentRoutine ← Ld.str
  let respawn ← Ld.bool
  let respawnTime ← Ld.int
  let protection ← Ld.raw 32 (Rd.times Rd.u32 8)
  let bsInterruptableOverride ← Ld.opt c.g2 o.bsInterruptableOverride Ld.int
  let npcType ← Ld.opt c.g2 o.npcType Ld.int
  let spellMana ← Ld.opt c.g2 o.spellMana Ld.int
  return { o with
    currentStateValid, currentStateName, currentStateIndex, currentStateIsRoutine, nextStateValid, nextStateName
    nextStateIndex, nextStateIsRoutine, lastAiState, hasRoutine, routineChanged, routineOverlay, routineOverlayCount
    walkmodeRoutine, weaponmodeRoutine, startNewRoutine, aiStateDriven, aiStatePos, currentRoutine, respawn, respawnTime
    protection, bsInterruptableOverride, npcType, spellMana }

/-- `VNpc::load` (`src/vobs/Misc.cc:272-429`). -/
def VNpc.load {P} (c : Ctx) (env : Env P) (o : VNpc P) : Ld P (VNpc P) := do
  let o ← VNpc.load1 c env o
  let o ← VNpc.load2 c o
  let o ← VNpc.load3 c env o
  VNpc.load4 c o

/-- A list of integers as `write_int` puts them into a buffer. -/
def ints (l : List (BitVec 32)) : Bytes := (l.foldl (fun w v => w.word 4 v) Ws.empty).data

/-- `VNpc::save` up to the talents (`src/vobs/Misc.cc:432-454`). -/
def VNpc.save1 (c : Ctx) (x : VNpc Nat) : List Field :=
  x.base.save c ++
  [fStr b!"npcInstance" x.npcInstance, fVec3 b!"modelScale" x.modelScale, fFloat b!"modelFatness" x.modelFatness,
   fInt b!"numOverlays" (size32 x.overlays)] ++
  x.overlays.map (fStr b!"overlay") ++
  [fInt b!"flags" x.flags, fInt b!"guild" x.guild, fInt b!"guildTrue" x.guildTrue, fInt b!"level" x.level, fInt b!"xp" x.xp,
   fInt b!"xpnl" x.xpNextLevel, fInt b!"lp" x.lp, fInt b!"numTalents" (size32 x.talents)] ++
  x.talents.map (fObj b!"%")

/-- `VNpc::save` up to the news (`src/vobs/Misc.cc:456-514`). -/
def VNpc.save2 (c : Ctx) (x : VNpc Nat) : List Field :=
  [fInt b!"fightTactic" x.fightTactic, fInt b!"fightMode" x.fightMode, fBool b!"wounded" x.wounded, fBool b!"mad" x.mad,
   fInt b!"madTime" x.madTime, fBool b!"player" x.player] ++
  numbered fInt b!"atr" x.attributes ++
  fIf c.g2 (numbered fInt b!"hc" x.hitChance) ++
  numbered fInt b!"mission" x.missions ++
  [fStr b!"startAIState" x.startAiState, fRaw b!"scriptVars" (ints (x.aivar.take (VNpc.varCount c))),
   fStr b!"scriptWp" x.scriptWaypoint, fInt b!"attitude" x.attitude, fInt b!"tmpAttitude" x.attitudeTemp,
   fInt b!"nameNr" x.nameNr, fRaw b!"spells" [0, 0, 0, 0], fInt b!"NumOfEntries" (size32 x.news)] ++
  x.news.flatMap News.save

/-- `VNpc::save` up to the slots (`src/vobs/Misc.cc:516-555`). -/
def VNpc.save3 (c : Ctx) (items : List Field) (x : VNpc Nat) : List Field :=
  [fObj b!"carryVob" x.carryVob, fObj b!"enemy" x.enemy, fBool b!"moveLock" x.moveLock] ++
  (if c.g2 then [fStr b!"packed" (VNpc.pack x.packed)] else x.packed.map (fStr b!"packed")) ++
  [fInt b!"itemCount" (size32 x.items)] ++ items ++ [fInt b!"numInvSlots" (size32 x.slots)] ++
  x.slots.flatMap Slot.save

/-- The rest of `VNpc::save` (`src/vobs/Misc.cc:557-594`). -/
def VNpc.save4 (c : Ctx) (x : VNpc Nat) : List Field :=
  [fBool b!"curState.valid" x.currentStateValid, fStr b!"curState.name" x.currentStateName,
   fInt b!"curState.prgIndex" x.currentStateIndex, fBool b!"curState.isRtnState" x.currentStateIsRoutine,
   fBool b!"nextState.valid" x.nextStateValid, fStr b!"nextState.name" x.nextStateName,
   fInt b!"nextState.prgIndex" x.nextStateIndex, fBool b!"nextState.isRtnState" x.nextStateIsRoutine,
   fInt b!"lastAIState" x.lastAiState, fBool b!"hasRoutine" x.hasRoutine, fBool b!"rtnChanged" x.routineChanged,
   fBool b!"rtnOverlay" x.routineOverlay, fInt b!"rtnOverlayCount" x.routineOverlayCount,
   fInt b!"walkmode_routine" x.walkmodeRoutine, fBool b!"weaponmode_routine" x.weaponmodeRoutine,
   fBool b!"startNewRoutine" x.startNewRoutine, fInt b!"aiStateDriven" x.aiStateDriven, fVec3 b!"aiStatePos" x.aiStatePos,
   fStr b!"curRoutine" x.currentRoutine, fBool b!"respawn" x.respawn, fInt b!"respawnTime" x.respawnTime,
   fRaw b!"protection" (ints x.protection)] ++
  fIf c.g2 [fInt b!"bsInterruptableOverride" x.bsInterruptableOverride, fInt b!"npcType" x.npcType,
    fInt b!"spellMana" x.spellMana]

/-- `VNpc::save` (`src/vobs/Misc.cc:431-595`). `flag` says which items have `s_flags & 0x200`. -/
def VNpc.save (flag : Nat → Bool) (c : Ctx) (x : VNpc Nat) : Except Fail (List Field) := do
  let items ← x.items.zipIdx.mapM (VNpc.saveItem flag)
  return x.save1 c ++ (x.save2 c ++ (x.save3 c items.flatten ++ x.save4 c))

end Verif.Obj
