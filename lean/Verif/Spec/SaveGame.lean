import Verif.Spec.Texture
import Verif.Model.SaveGame
import Verif.Lemmas.Line

/-! # What is expected of saved games -/

namespace Verif.SaveGame

open Verif.Obj

/-- The metadata is the same, as far as the game knows it. -/
structure InfoKept (game : Obj.Game) (x y : SaveMetadata) : Prop where
  title : y.title = x.title
  world : y.world = x.world
  time : y.timeDay = x.timeDay ∧ y.timeHour = x.timeHour ∧ y.timeMinute = x.timeMinute
  saveDate : y.saveDate = x.saveDate
  version : y.versionMajor = x.versionMajor ∧ y.versionMinor = x.versionMinor
  playTime : y.playTimeSeconds = x.playTimeSeconds
  g2 : game = .g2 → y.versionPoint = x.versionPoint ∧ y.versionInt = x.versionInt ∧ y.versionAppName = x.versionAppName

/-- The state is the same, with other pointers. -/
structure StateKept (φ : Nat → Nat) (x y : SaveState Nat) : Prop where
  time : y.day = x.day ∧ y.hour = x.hour ∧ y.minute = x.minute
  missions : y.missions = x.missions
  infos : y.infos = x.infos
  log : y.log = x.log
  symbols : y.symbols = x.symbols
  guilds : y.guildAttitudes = x.guildAttitudes
  manager : y.cutsceneManager = x.cutsceneManager.map φ

/-- Metadata with strings without line breaks, and with numbers of at most ten characters. -/
structure InfoOk (m : SaveMetadata) : Prop where
  strings : ∀ s ∈ [m.title, m.world, m.saveDate, m.versionAppName], NoEol s
  ints : ∀ v ∈ [m.timeDay, m.timeHour, m.timeMinute, m.versionMajor, m.versionMinor, m.playTimeSeconds, m.versionPoint, m.versionInt],
    -10 ^ 9 < v.toInt

/-- A texture as the loader makes it: it has as many levels as it says, of the sizes that belong to the format, and a palette. -/
structure TextureOk (t : Tex.Texture) : Prop where
  some : t.mipmaps ≠ 0
  sized : t.Sized
  whole : t.Whole
  palette : t.palette.length = 256
  noPalette : t.format ≠ Tex.p8 → t.palette = List.replicate 256 {}

/-- The header is not longer at the end than it was at the beginning. -/
structure ClockOk (k : Clock) : Prop where
  length : k.start.date.length + k.start.user.length = k.finish.date.length + k.finish.user.length
  date : NoEol k.finish.date
  user : NoEol k.finish.user

/-- The file systems that can be found when the process stops while it makes some steps. -/
def Crash (ops : List Op) (fs fs' : Fs) : Prop :=
  fs' = runOps ops fs ∨ ∃ pre op suf, ops = pre ++ op :: suf ∧ op.during (runOps pre fs) fs'

/-- A directory with a saved game that can be loaded. -/
def Loadable (game : Obj.Game) (path : Path) (fs : Fs) : Prop :=
  ∃ fuel g, Game.load { version := game } path fuel fs = .ok g

end Verif.SaveGame
