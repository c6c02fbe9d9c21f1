import Verif.Model.ObjMisc

/-! # Cutscenes, the sky and saved games: `src/CutsceneLibrary.cc`, `src/World.cc`, `src/SaveGame.cc` -/

namespace Verif.Obj

open Verif.Ar

/-- `SkyController` (`include/zenkit/World.hh`). -/
structure SkyController where
  masterTime : F32 := 0
  rainWeight : F32 := 0
  rainStart : F32 := 0
  rainStop : F32 := 0
  rainSctTimer : F32 := 0
  rainSndVol : F32 := 0
  dayCtr : F32 := 0
  fadeScale : F32 := 0
  renderLightning : Bool := false
  isRaining : Bool := false
  rainCtr : BitVec 32 := 0
  deriving DecidableEq, Repr

/-- `SkyController::load` (`src/World.cc:273-288`). -/
def SkyController.load {P} (c : Ctx) (_ : Env P) (o : SkyController) : Ld P SkyController := do
  let masterTime ← Ld.float
  let rainWeight ← Ld.float
  let rainStart ← Ld.float
  let rainStop ← Ld.float
  let rainSctTimer ← Ld.float
  let rainSndVol ← Ld.float
  let dayCtr ← Ld.float
  let fadeScale ← Ld.opt c.g2 o.fadeScale Ld.float
  let renderLightning ← Ld.opt c.g2 o.renderLightning Ld.bool
  let isRaining ← Ld.opt c.g2 o.isRaining Ld.bool
  let rainCtr ← Ld.opt c.g2 o.rainCtr Ld.int
  return { masterTime, rainWeight, rainStart, rainStop, rainSctTimer, rainSndVol, dayCtr, fadeScale, renderLightning, isRaining,
           rainCtr }

/-- `SkyController::save` (`src/World.cc:290-305`). -/
def SkyController.save (c : Ctx) (x : SkyController) : List Field :=
  [fFloat b!"masterTime" x.masterTime, fFloat b!"rainWeight" x.rainWeight, fFloat b!"rainStart" x.rainStart, fFloat b!"rainStop"
   x.rainStop, fFloat b!"rainSctTimer" x.rainSctTimer, fFloat b!"rainSndVol" x.rainSndVol, fFloat b!"dayCtr" x.dayCtr] ++
  fIf c.g2 [fFloat b!"" x.fadeScale, fBool b!"" x.renderLightning, fBool b!"" x.isRaining, fInt b!"" x.rainCtr]

/-- `SaveMetadata` (`include/zenkit/SaveGame.hh`). -/
structure SaveMetadata where
  title : Bytes := []
  world : Bytes := []
  timeDay : BitVec 32 := 0
  timeHour : BitVec 32 := 0
  timeMinute : BitVec 32 := 0
  saveDate : Bytes := []
  versionMajor : BitVec 32 := 0
  versionMinor : BitVec 32 := 0
  playTimeSeconds : BitVec 32 := 0
  versionPoint : BitVec 32 := 0
  versionInt : BitVec 32 := 0
  versionAppName : Bytes := []
  deriving DecidableEq, Repr

/-- `SaveMetadata::load` (`src/SaveGame.cc:14-30`). -/
def SaveMetadata.load {P} (c : Ctx) (_ : Env P) (o : SaveMetadata) : Ld P SaveMetadata := do
  let title ← Ld.str
  let world ← Ld.str
  let timeDay ← Ld.int
  let timeHour ← Ld.int
  let timeMinute ← Ld.int
  let saveDate ← Ld.str
  let versionMajor ← Ld.int
  let versionMinor ← Ld.int
  let playTimeSeconds ← Ld.int
  let versionPoint ← Ld.opt c.g2 o.versionPoint Ld.int
  let versionInt ← Ld.opt c.g2 o.versionInt Ld.int
  let versionAppName ← Ld.opt c.g2 o.versionAppName Ld.str
  return { title, world, timeDay, timeHour, timeMinute, saveDate, versionMajor, versionMinor, playTimeSeconds, versionPoint,
           versionInt, versionAppName }

/-- `SaveMetadata::save` (`src/SaveGame.cc:32-48`). -/
def SaveMetadata.save (c : Ctx) (x : SaveMetadata) : List Field :=
  [fStr b!"Title" x.title, fStr b!"WorldName" x.world, fInt b!"TimeDay" x.timeDay, fInt b!"TimeHour" x.timeHour, fInt
   b!"TimeMin" x.timeMinute, fStr b!"SaveDate" x.saveDate, fInt b!"VersionMajor" x.versionMajor, fInt b!"VersionMinor"
   x.versionMinor, fInt b!"PlayTimeSeconds" x.playTimeSeconds] ++
  fIf c.g2 [fInt b!"VersionPoint" x.versionPoint, fInt b!"VersionInt" x.versionInt, fStr b!"VersionAppName" x.versionAppName]

/-- `CutscenePoolItem` (`include/zenkit/SaveGame.hh`). -/
structure CutscenePoolItem where
  name : Bytes := []
  runBehavior : BitVec 32 := 0
  runBehaviorValue : BitVec 32 := 0
  timesPlayed : BitVec 32 := 0
  deactivated : BitVec 32 := 0
  flags : BitVec 32 := 0
  deriving DecidableEq, Repr

/-- `CutscenePoolItem::load` (`src/SaveGame.cc:50-57`). -/
def CutscenePoolItem.load {P} (_ : Ctx) (_ : Env P) (_ : CutscenePoolItem) : Ld P CutscenePoolItem := do
  let name ← Ld.str
  let runBehavior ← Ld.enum
  let runBehaviorValue ← Ld.int
  let timesPlayed ← Ld.int
  let deactivated ← Ld.int
  let flags ← Ld.int
  return { name, runBehavior, runBehaviorValue, timesPlayed, deactivated, flags }

/-- `CutscenePoolItem::save` (`src/SaveGame.cc:59-66`). -/
def CutscenePoolItem.save (_ : Ctx) (x : CutscenePoolItem) : List Field :=
  [fStr b!"itemName" x.name, fEnum b!"runBehaviour" x.runBehavior, fInt b!"runBehaviourValue" x.runBehaviorValue, fInt
   b!"numPlayed" x.timesPlayed, fInt b!"deactivated" x.deactivated, fInt b!"flags" x.flags]

/-- `ConversationMessageEvent` (`include/zenkit/CutsceneLibrary.hh`). -/
structure ConversationMessage where
  type : BitVec 32 := 0
  highPriority : Bool := false
  used : Bool := false
  deleted : Bool := false
  text : Bytes := []
  name : Bytes := []
  deriving DecidableEq, Repr

/-- `ConversationMessageEvent::load` (`src/CutsceneLibrary.cc:13-24`). -/
def ConversationMessage.load {P} (c : Ctx) (_ : Env P) (o : ConversationMessage) : Ld P ConversationMessage := do
  let type ← Ld.enum
  let highPriority ← Ld.opt c.save o.highPriority Ld.bool
  let used ← Ld.opt c.save o.used Ld.bool
  let deleted ← Ld.opt c.save o.deleted Ld.bool
  let text ← Ld.str
  let name ← Ld.str
  return { type, highPriority, used, deleted, text, name }

/-- `ConversationMessageEvent::save` (`src/CutsceneLibrary.cc:26-37`). -/
def ConversationMessage.save (c : Ctx) (x : ConversationMessage) : List Field :=
  [fEnum b!"subType" x.type] ++
  fIf c.save [fBool b!"highPriority" x.highPriority, fBool b!"inUse" x.used, fBool b!"deleted" x.deleted] ++
  [fStr b!"text" x.text, fStr b!"name" x.name]

/-- `CutsceneProps` (`include/zenkit/CutsceneLibrary.hh`). -/
structure CutsceneProps where
  name : Bytes := []
  global : Bool := false
  loop : Bool := false
  hasToBeTriggered : Bool := false
  distance : F32 := 0
  range : F32 := 0
  lockedBlockCount : BitVec 32 := 0
  runBehaviour : BitVec 32 := 0
  runBehaviourValue : BitVec 32 := 0
  stageName : Bytes := []
  scriptFunctionOnStop : Bytes := []
  deriving DecidableEq, Repr

/-- `CutsceneProps::load` (`src/CutsceneLibrary.cc:141-153`). -/
def CutsceneProps.load {P} (_ : Ctx) (_ : Env P) (_ : CutsceneProps) : Ld P CutsceneProps := do
  let name ← Ld.str
  let global ← Ld.bool
  let loop ← Ld.bool
  let hasToBeTriggered ← Ld.bool
  let distance ← Ld.float
  let range ← Ld.float
  let lockedBlockCount ← Ld.int
  let runBehaviour ← Ld.enum
  let runBehaviourValue ← Ld.int
  let stageName ← Ld.str
  let scriptFunctionOnStop ← Ld.str
  return { name, global, loop, hasToBeTriggered, distance, range, lockedBlockCount, runBehaviour, runBehaviourValue, stageName,
           scriptFunctionOnStop }

/-- `CutsceneProps::save` (`src/CutsceneLibrary.cc:155-167`). -/
def CutsceneProps.save (_ : Ctx) (x : CutsceneProps) : List Field :=
  [fStr b!"name" x.name, fBool b!"globalCutscene" x.global, fBool b!"csLoop" x.loop, fBool b!"hasToBeTriggerd"
   x.hasToBeTriggered, fFloat b!"distance" x.distance, fFloat b!"range" x.range, fInt b!"numLockedBlocks" x.lockedBlockCount,
   fEnum b!"runBehaviour" x.runBehaviour, fInt b!"runBehaviourValue" x.runBehaviourValue, fStr b!"StageName" x.stageName, fStr
   b!"scriptFuncOnStop" x.scriptFunctionOnStop]

/-- `CutsceneAtomicBlock` (`include/zenkit/CutsceneLibrary.hh`). The member `synchronized` is neither loaded nor saved. -/
structure AtomicBlock (P : Type) where
  message : Option P := none
  synchronized : Bool := false
  deriving DecidableEq, Repr

/-- `CutsceneAtomicBlock::load` (`src/CutsceneLibrary.cc:39-41`). -/
def AtomicBlock.load {P} (o : AtomicBlock P) : Ld P (AtomicBlock P) := do
  let message ← Ld.objAs .oCMsgConversation
  return { o with message }

/-- `CutsceneAtomicBlock::save` (`src/CutsceneLibrary.cc:43-45`). -/
def AtomicBlock.save (x : AtomicBlock Nat) : List Field := [fObj b!"%" x.message]

/-- `CutsceneBlock` (`include/zenkit/CutsceneLibrary.hh`). `atomic` says which alternative the variant `block` has. -/
structure Block (P : Type) where
  name : Bytes := []
  atomic : Bool := true
  block : Option P := none
  deriving DecidableEq, Repr

/-- `CutsceneBlock::load` (`src/CutsceneLibrary.cc:71-92`). -/
def Block.load {P} (env : Env P) (_ : Block P) : Ld P (Block P) := do
  let name ← Ld.str
  let count ← Ld.int
  let _ ← Ld.float
  if count != 1 then .fail (.throw .parser) else do
  match ← Ld.obj with
  | none => .fail .ub
  | some a =>
    if env.is .zCCSAtomicBlock a then return { name, atomic := true, block := some a }
    else if env.is .zCCSBlock a then return { name, atomic := false, block := some a }
    else .fail (.throw .parser)

/-- `CutsceneBlock::save` (`src/CutsceneLibrary.cc:94-104`). -/
def Block.save (x : Block Nat) : List Field :=
  [fStr b!"blockName" x.name, fInt b!"numOfBlocks" 1, fFloat b!"subBlock0" 0, fObj b!"%" x.block]

/-- `CutsceneContext` (`include/zenkit/CutsceneLibrary.hh`). -/
structure Context (P : Type) where
  base : Block P := { atomic := false }
  props : Option P := none
  roleCount : BitVec 32 := 0
  roleVobCount : BitVec 32 := 0
  npc : Option P := none
  mainRole : Option P := none
  isCutscene : Bool := false
  reference : BitVec 32 := 0
  actualBlock : BitVec 32 := 0
  altStage : Option P := none
  stage : Option P := none
  wasTriggered : Bool := false
  deriving DecidableEq, Repr

/-- `CutsceneContext::load` (`src/CutsceneLibrary.cc:181-195`, with `Cutscene::load`, `173-175`). -/
def Context.load {P} (env : Env P) (o : Context P) : Ld P (Context P) := do
  let base ← Block.load env o.base
  let props ← Ld.objAs .zCCSProps
  let roleCount ← Ld.int
  let roleVobCount ← Ld.int
  let npc ← Ld.objAs .oCNpc
  let mainRole ← Ld.objAs .oCNpc
  let isCutscene ← Ld.bool
  let reference ← Ld.int
  let actualBlock ← Ld.int
  let altStage ← Ld.obj
  let stage ← Ld.obj
  let wasTriggered ← Ld.bool
  return { base, props, roleCount, roleVobCount, npc, mainRole, isCutscene, reference, actualBlock, altStage, stage, wasTriggered }

/-- `CutsceneContext::save` (`src/CutsceneLibrary.cc:197-211`, with `Cutscene::save`, `177-179`). -/
def Context.save (x : Context Nat) : List Field :=
  x.base.save ++
  [fObj b!"%" x.props, fInt b!"numOfRoles" x.roleCount, fInt b!"numOfRoleVobs" x.roleVobCount, fObj b!"%" x.npc,
   fObj b!"mainRoleVob" x.mainRole, fBool b!"isCutscene" x.isCutscene, fInt b!"reference" x.reference,
   fInt b!"actualBlock" x.actualBlock, fObj b!"alt_stage" x.altStage, fObj b!"stage" x.stage,
   fBool b!"wasTriggered" x.wasTriggered]

/-- `CutscenePlayer` (`include/zenkit/World.hh`). -/
structure CutscenePlayer (P : Type) where
  lastProcessDay : BitVec 32 := 0
  lastProcessHour : BitVec 32 := 0
  playlists : List (Option P) := []
  deriving DecidableEq, Repr

/-- `CutscenePlayer::load` (`src/World.cc:253-261`). -/
def CutscenePlayer.load {P} (o : CutscenePlayer P) : Ld P (CutscenePlayer P) := do
  let lastProcessDay ← Ld.int
  let lastProcessHour ← Ld.int
  let count ← Ld.int
  let playlists ← Ld.times (Ld.rounds count) (Ld.objAs .zCCSCutsceneContext)
  return { lastProcessDay, lastProcessHour, playlists := o.playlists ++ playlists }

/-- `CutscenePlayer::save` (`src/World.cc:263-271`). -/
def CutscenePlayer.save (x : CutscenePlayer Nat) : List Field :=
  [fInt b!"lastProcessDay" x.lastProcessDay, fInt b!"lastProcessHour" x.lastProcessHour,
   fInt b!"playListCount" (size32 x.playlists)] ++ numbered fObj b!"playContext" x.playlists

/-- `CutsceneManager` (`include/zenkit/SaveGame.hh`). -/
structure CutsceneManager (P : Type) where
  poolItems : List (Option P) := []
  deriving DecidableEq, Repr

/-- `CutsceneManager::load` (`src/SaveGame.cc:68-73`). -/
def CutsceneManager.load {P} (o : CutsceneManager P) : Ld P (CutsceneManager P) := do
  let count ← Ld.int
  let l ← Ld.times (Ld.rounds count) (Ld.objAs .zCCSPoolItem)
  return { poolItems := o.poolItems ++ l }

/-- `CutsceneManager::save` (`src/SaveGame.cc:75-80`). -/
def CutsceneManager.save (x : CutsceneManager Nat) : List Field :=
  fInt b!"poolCount" (size32 x.poolItems) :: x.poolItems.map (fObj b!"%")

/-- `CutsceneLibrary` (`include/zenkit/CutsceneLibrary.hh`). -/
structure Library (P : Type) where
  blocks : List (Option P) := []
  deriving DecidableEq, Repr

/-- `CutsceneLibrary::load` (`src/CutsceneLibrary.cc:119-125`) without the `std::sort` at its end (`127-130`), which looks into other
objects: see `Library.sort`. A negative count is too much for `reserve`. Simplification: memory for the count given is there. -/
def Library.load {P} (o : Library P) : Ld P (Library P) := do
  let count ← Ld.int
  if count.msb then .fail (.throw .lengthError) else do
  let l ← Ld.times (Ld.rounds count) (Ld.objAs .zCCSBlock)
  return { blocks := o.blocks ++ l }

/-- `CutsceneLibrary::save` (`src/CutsceneLibrary.cc:133-139`). -/
def Library.save (x : Library Nat) : List Field :=
  fInt b!"NumOfItems" (size32 x.blocks) :: x.blocks.map (fObj b!"%")

/-- `SaveInfoState` (`include/zenkit/SaveGame.hh`). -/
structure SaveInfo where
  name : Bytes := []
  told : Bool := false
  deriving DecidableEq, Repr

/-- `Mission` (`include/zenkit/SaveGame.hh`). -/
structure Mission where
  name : Bytes := []
  id : BitVec 32 := 0
  available : Bool := false
  statusIndex : BitVec 32 := 0
  deriving DecidableEq, Repr

/-- `SaveLogTopic` (`include/zenkit/SaveGame.hh`). -/
structure LogTopic where
  description : Bytes := []
  topicSection : BitVec 32 := 0
  status : BitVec 32 := 0
  entries : List Bytes := []
  deriving DecidableEq, Repr

/-- `SaveSymbolState` (`include/zenkit/SaveGame.hh`). -/
structure SymbolState where
  name : Bytes := []
  values : List (BitVec 32) := []
  deriving DecidableEq, Repr

/-- `SaveState` (`include/zenkit/SaveGame.hh`). -/
structure SaveState (P : Type) where
  day : BitVec 32 := 0
  hour : BitVec 32 := 0
  minute : BitVec 32 := 0
  missions : List Mission := []
  cutsceneManager : Option P := none
  infos : List SaveInfo := []
  symbols : List SymbolState := []
  log : List LogTopic := []
  guildAttitudes : List (BitVec 8) := List.replicate 1764 0
  deriving DecidableEq, Repr

/-- One round of the loop (`src/SaveGame.cc:90-95`). -/
def SaveInfo.load {P} : Ld P SaveInfo := do
  let told ← Ld.bool
  let name ← Ld.str
  return { name, told }

/-- One round of the loop (`src/SaveGame.cc:100-116`). -/
def Mission.load {P} : Ld P Mission := do
  let name ← Ld.str
  let id ← Ld.int
  let available ← Ld.bool
  let count ← Ld.int
  let _ ← Ld.times (Ld.rounds count) (do let _ ← Ld.int; let _ ← Ld.int; Ld.float)
  let statusIndex ← Ld.int
  return { name, id, available, statusIndex }

/-- One round of the loop (`src/SaveGame.cc:123-138`). Simplification: the vector is resized after the second number has been
read. -/
def LogTopic.load {P} : Ld P LogTopic := do
  let description ← Ld.str
  let topicSection ← Ld.enum
  let status ← Ld.enum
  let count ← Ld.int
  let _ ← Ld.int
  let entries ← Ld.sized count Ld.str
  return { description, topicSection, status, entries }

/-- One round of the loop (`src/SaveGame.cc:147-159`). -/
def SymbolState.load {P} (c : Ctx) : Ld P SymbolState := do
  let name ← Ld.str
  let count ← Ld.opt c.g2 1 Ld.int
  let values ← Ld.times (Ld.rounds count) Ld.int
  return { name, values }

/-- `SaveState::load` (`src/SaveGame.cc:82-170`), for a state that has not been loaded before. -/
def SaveState.load {P} (c : Ctx) : Ld P (SaveState P) := do
  let day ← Ld.int
  let hour ← Ld.int
  let minute ← Ld.int
  let infoCount ← Ld.int
  let infos ← Ld.sized infoCount SaveInfo.load
  let missionCount ← Ld.int
  let missions ← Ld.times (Ld.rounds missionCount) Mission.load
  let topicCount ← Ld.int
  let log ← Ld.sized topicCount LogTopic.load
  let cutsceneManager ← Ld.objAs .oCCSManager
  let symbolCount ← Ld.int
  let symbols ← Ld.sized symbolCount (SymbolState.load c)
  let guildAttitudes ← Ld.raw 1764 (Rd.times Rd.u8 1764)
  return { day, hour, minute, infos, missions, log, cutsceneManager, symbols, guildAttitudes }

/-- One round of the loop (`src/SaveGame.cc:180-185`). -/
def SaveInfo.save (x : SaveInfo) : List Field := [fBool b!"Told" x.told, fStr b!"InstName" x.name]

/-- One round of the loop (`src/SaveGame.cc:189-197`). -/
def Mission.save (x : Mission) : List Field :=
  [fStr b!"name" x.name, fInt b!"ID" x.id, fBool b!"Av" x.available, fInt b!"NumInList" 0, fInt b!"StatusIndex" x.statusIndex]

/-- One round of the loop (`src/SaveGame.cc:202-214`). -/
def LogTopic.save (x : LogTopic) : List Field :=
  [fStr b!"TOPICDESCRIPTION" x.description, fEnum b!"TOPICSECTION" x.topicSection, fEnum b!"TOPICSTATUS" x.status,
   fInt b!"LOGTOPICENTRYCOUNT" (size32 x.entries), fInt b!"LOGMANAGERENTRYCOUNT" (size32 x.entries)] ++
  x.entries.map (fStr b!"ENTRYDESCRIPTION")

/-- One round of the loop (`src/SaveGame.cc:221-235`); `values[0]` of an empty vector is undefined behaviour. -/
def SymbolState.save (c : Ctx) (p : SymbolState × Nat) : Except Fail (List Field) :=
  if c.g2 then
    .ok ([fStr (b!"symName" ++ dec p.2) p.1.name, fInt (b!"symName" ++ dec p.2 ++ b!"cnt") (size32 p.1.values)] ++
      p.1.values.map (fInt (b!"symValue" ++ dec p.2 ++ b!"_0")))
  else
    match p.1.values with
    | [] => .error .ub
    | v :: _ => .ok [fStr (b!"symName" ++ dec p.2) p.1.name, fInt (b!"symValue" ++ dec p.2) v]

/-- `SaveState::save` (`src/SaveGame.cc:172-249`). -/
def SaveState.save (c : Ctx) (x : SaveState Nat) : Except Fail (List Field) := do
  let symbols ← x.symbols.zipIdx.mapM (SymbolState.save c)
  return [fInt b!"day" x.day, fInt b!"hour" x.hour, fInt b!"min" x.minute, fInt b!"NumOfEntries" (size32 x.infos)] ++
    (x.infos.flatMap SaveInfo.save ++ (fInt b!"NumOfEntries" (size32 x.missions) :: (x.missions.flatMap Mission.save ++
    (fInt b!"LOGMANAGERTOPICCOUNT" (size32 x.log) :: (x.log.flatMap LogTopic.save ++
    ([fObj b!"%" x.cutsceneManager, fInt b!"numSymbols" (size32 x.symbols)] ++ (symbols.flatten ++
    [fRaw b!"guildTable" (x.guildAttitudes.foldl (fun w v => Ws.u8 v w) (Ws.mk (List.replicate 1764 0) 0)).data])))))))

end Verif.Obj
