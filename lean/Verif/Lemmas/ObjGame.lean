import Verif.Lemmas.ObjClasses

/-! # Loading characters, cutscenes and the state of saved games -/

namespace Verif.Obj

open Verif.Ar

theorem SkyController.loads {P} {c : Ctx} {env : Env P} {φ : Nat → P} {o : SkyController} {x : SkyController} : Loads env φ
    (SkyController.load c env o) (x.save c) (x.copy c env φ o) := by
  obtain ⟨game, save, pack⟩ := c
  intro rest
  cases game <;> cases save <;> rfl

theorem SaveMetadata.loads {P} {c : Ctx} {env : Env P} {φ : Nat → P} {o : SaveMetadata} {x : SaveMetadata} : Loads env φ
    (SaveMetadata.load c env o) (x.save c) (x.copy c env φ o) := by
  obtain ⟨game, save, pack⟩ := c
  intro rest
  cases game <;> cases save <;> rfl

theorem CutscenePoolItem.loads {P} {c : Ctx} {env : Env P} {φ : Nat → P} {o : CutscenePoolItem} {x : CutscenePoolItem} : Loads
    env φ (CutscenePoolItem.load c env o) (x.save c) (x.copy c env φ o) := by
  obtain ⟨game, save, pack⟩ := c
  intro rest
  cases game <;> cases save <;> rfl

theorem ConversationMessage.loads {P} {c : Ctx} {env : Env P} {φ : Nat → P} {o : ConversationMessage} {x : ConversationMessage}
    : Loads env φ (ConversationMessage.load c env o) (x.save c) (x.copy c env φ o) := by
  obtain ⟨game, save, pack⟩ := c
  intro rest
  cases game <;> cases save <;> rfl

theorem CutsceneProps.loads {P} {c : Ctx} {env : Env P} {φ : Nat → P} {o : CutsceneProps} {x : CutsceneProps} : Loads env φ
    (CutsceneProps.load c env o) (x.save c) (x.copy c env φ o) := by
  obtain ⟨game, save, pack⟩ := c
  intro rest
  cases game <;> cases save <;> rfl

variable {P : Type} {c : Ctx} {env : Env P} {φ : Nat → P}

theorem VDecal.loads {o x : VDecal} : Loads env φ (VDecal.load c o) (x.save c) (x.copy c o) := by
  obtain ⟨game, save, pack⟩ := c
  intro rest
  cases game <;> cases save <;> rfl

theorem EventManager.loads {o : EventManager P} {x : EventManager Nat} (h : Typed env φ .zCCSCutsceneContext x.cutscene) :
    Loads env φ (EventManager.load o) x.save (x.copy φ) :=
  Loads.cons (Loads.bool _ _) (Loads.cons (Loads.bool _ _) (Loads.map (Loads.objAs _ h)))

theorem AiHuman.loads {o : AiHuman P} {x : AiHuman Nat} (h : Typed env φ .oCNpc x.npc) :
    Loads env φ (AiHuman.load o) x.save (x.copy φ) :=
  Loads.cons (Loads.int _ _) (Loads.cons (Loads.float _ _) (Loads.cons (Loads.float _ _) (Loads.cons (Loads.float _ _)
    (Loads.cons (Loads.float _ _) (Loads.cons (Loads.float _ _) (Loads.cons (Loads.float _ _) (Loads.cons (Loads.float _ _)
    (Loads.cons (Loads.objAs _ h) fun _ => rfl))))))))

theorem AiMove.loads {o : AiMove P} {x : AiMove Nat} (h : Typed env φ .oCNpc x.owner) :
    Loads env φ (AiMove.load o) x.save (x.copy φ) := Loads.cons (Loads.obj _ _) (Loads.map (Loads.objAs _ h))

theorem AtomicBlock.loads {o : AtomicBlock P} {x : AtomicBlock Nat} (h : Typed env φ .oCMsgConversation x.message) :
    Loads env φ (AtomicBlock.load o) x.save (x.copy φ o) := Loads.map (Loads.objAs _ h)

theorem Block.loads {o : Block P} {x : Block Nat} (h : x.Readable env φ) : Loads env φ (Block.load env o) x.save (x.copy env φ) := by
  obtain ⟨a, ha, h⟩ := h
  unfold Block.save
  refine Loads.cons (Loads.str _ _) (Loads.cons (Loads.int _ _) (Loads.cons (Loads.float _ _) ?_))
  intro rest
  simp only [ha, Block.copy]
  show Ld.run env (if env.is .zCCSAtomicBlock (φ a) = true then _ else if env.is .zCCSBlock (φ a) = true then _ else _) _ = _
  cases hx : env.is .zCCSAtomicBlock (φ a) with
  | true => rfl
  | false =>
    rw [hx] at h
    rw [h.resolve_left (by decide)]
    rfl

theorem Context.loads {o : Context P} {x : Context Nat} (h : x.base.Readable env φ)
    (hp : Typed env φ .zCCSProps x.props) (hn : Typed env φ .oCNpc x.npc) (hm : Typed env φ .oCNpc x.mainRole) :
    Loads env φ (Context.load env o) x.save (x.copy env φ) := by
  unfold Context.save
  refine Loads.bind (Block.loads h) (Loads.cons (Loads.objAs _ hp) (Loads.cons (Loads.int _ _) (Loads.cons (Loads.int _ _)
    (Loads.cons (Loads.objAs _ hn) (Loads.cons (Loads.objAs _ hm) fun rest => ?_)))))
  rfl

theorem CutscenePlayer.loads {o : CutscenePlayer P} {x : CutscenePlayer Nat} (hn : Fits31 x.playlists)
    (h : ∀ p ∈ x.playlists, Typed env φ .zCCSCutsceneContext p) :
    Loads env φ (CutscenePlayer.load o) x.save (x.copy φ o) := by
  unfold CutscenePlayer.save
  simp only [List.cons_append, List.nil_append]
  refine Loads.cons (Loads.int _ _) (Loads.cons (Loads.int _ _) (Loads.cons (Loads.int _ _) ?_))
  rw [rounds_size32 hn]
  exact Loads.map (Loads.numbered fun p hp n => Loads.objAs n (h p hp))

theorem CutsceneManager.loads {o : CutsceneManager P} {x : CutsceneManager Nat} (hn : Fits31 x.poolItems)
    (h : ∀ p ∈ x.poolItems, Typed env φ .zCCSPoolItem p) :
    Loads env φ (CutsceneManager.load o) x.save (x.copy φ o) := by
  unfold CutsceneManager.save
  refine Loads.cons (Loads.int _ _) ?_
  rw [rounds_size32 hn]
  exact Loads.map (Loads.each fun p hp => Loads.objAs _ (h p hp))

theorem Library.loads {o : Library P} {x : Library Nat} (hn : Fits31 x.blocks) (h : ∀ p ∈ x.blocks, Typed env φ .zCCSBlock p) :
    Loads env φ (Library.load o) x.save (x.copy φ o) := by
  unfold Library.save
  refine Loads.cons (Loads.int _ _) ?_
  have hm : (size32 x.blocks).msb = false := by
    unfold Fits31 at hn
    rw [BitVec.msb_eq_false_iff_two_mul_lt]
    simp [size32]
    omega
  rw [hm]
  simp only [Bool.false_eq_true, if_false]
  rw [rounds_size32 hn]
  exact Loads.map (Loads.each fun p hp => Loads.objAs _ (h p hp))

theorem Loads.times' {γ} {p : Ld P γ} {l : List γ} {g : γ → List Field} (hp : ∀ x ∈ l, Loads env φ p (g x) x) :
    Loads env φ (Ld.times l.length p) (l.flatMap g) l := by
  have := Loads.times (h := id) hp
  rwa [List.map_id] at this

theorem LogTopic.loads {x : LogTopic} (h : Fits31 x.entries) : Loads env φ LogTopic.load x.save x := by
  unfold LogTopic.save
  simp only [List.cons_append, List.nil_append]
  refine Loads.cons (Loads.str _ _) (Loads.cons (Loads.enum _ _) (Loads.cons (Loads.enum _ _) (Loads.cons (Loads.int _ _)
    (Loads.cons (Loads.int _ _) ?_))))
  rw [Ld.sized_size32 h]
  have := Loads.each (env := env) (φ := φ) (p := Ld.str) (l := x.entries) (g := fStr b!"ENTRYDESCRIPTION") (h := id)
    (fun v _ => Loads.str _ v)
  rw [List.map_id] at this
  exact Loads.map this

theorem SymbolState.loads {x : SymbolState} {i : Nat} {fs : List Field} (hs : SymbolState.save c (x, i) = .ok fs)
    (h : Fits31 x.values) :
    Loads env φ (SymbolState.load c) fs (if c.game = .g2 then x else { x with values := x.values.take 1 }) := by
  obtain ⟨game, save, pack⟩ := c
  cases game with
  | g1 =>
    obtain ⟨name, values⟩ := x
    cases values with
    | nil => cases hs
    | cons v vs => cases hs; exact fun _ => rfl
  | g2 =>
    simp only [SymbolState.save, Ctx.g2, decide_true, if_true] at hs
    cases hs
    simp only [List.cons_append, List.nil_append]
    refine Loads.cons (Loads.str _ _) (Loads.cons (Loads.int _ _) ?_)
    rw [rounds_size32 h]
    have := Loads.each (env := env) (φ := φ) (p := Ld.int) (l := x.values) (g := fInt (b!"symValue" ++ dec i ++ b!"_0")) (h := id)
      (fun v _ => Loads.int _ v)
    rw [List.map_id] at this
    exact Loads.map this

/-- A loop whose rounds may fail when saving. -/
theorem Loads.timesM {γ α} {p : Ld P α} {l : List γ} {g : γ × Nat → Except Fail (List Field)} {h : γ → α} {k : Nat} {fs : List (List Field)}
    (hs : (l.zipIdx k).mapM g = .ok fs) (hp : ∀ x ∈ l, ∀ i r, g (x, i) = .ok r → Loads env φ p r (h x)) :
    Loads env φ (Ld.times l.length p) fs.flatten (l.map h) := by
  induction l generalizing k fs with
  | nil => cases hs; exact fun _ => rfl
  | cons x l ih =>
    rw [List.zipIdx_cons, List.mapM_cons] at hs
    cases h1 : g (x, k) with
    | error e => rw [h1] at hs; cases hs
    | ok r =>
      cases h2 : (l.zipIdx (k + 1)).mapM g with
      | error e => rw [h1, h2] at hs; cases hs
      | ok rs =>
        rw [h1, h2] at hs
        cases hs
        rw [List.flatten_cons]
        refine Loads.bind (p := p) (hp x (by simp) k r h1) ?_
        exact Loads.map (ih h2 fun y hy => hp y (by simp [hy]))

theorem guilds_data (l : List (BitVec 8)) (n : Nat) (h : l.length = n) :
    (l.foldl (fun w v => Ws.u8 v w) (Ws.mk (List.replicate n 0) 0)).data = (l.map (encW 1)).flatten := by
  have e := Emits.foldl Ws.u8 (encW 1) Emits.u8 l (Ws.mk (List.replicate n 0) 0) (Nat.zero_le _)
  have hl : (l.map (encW 1)).flatten.length = n := by rw [flatten_length l (encW 1) 1 (by simp), h, Nat.mul_one]
  refine (congrArg Ws.data e).trans ?_
  simp only [Ws.write]
  rw [splice_le _ _ _ (Nat.zero_le _), hl]
  simp

theorem SaveState.loads {x : SaveState Nat} {fs : List Field} (hs : x.save c = .ok fs) (h : x.Readable env φ) :
    Loads env φ (SaveState.load c) fs (x.copy c φ) := by
  unfold SaveState.save at hs
  cases ha : x.symbols.zipIdx.mapM (SymbolState.save c) with
  | error e => rw [ha] at hs; cases hs
  | ok ys =>
    rw [ha] at hs
    cases hs
    simp only [List.cons_append, List.nil_append]
    refine Loads.cons (Loads.int _ _) (Loads.cons (Loads.int _ _) (Loads.cons (Loads.int _ _) (Loads.cons (Loads.int _ _) ?_)))
    rw [Ld.sized_size32 h.infos]
    refine Loads.bind (Loads.times' fun _ _ _ => rfl) (Loads.cons (Loads.int _ _) ?_)
    rw [rounds_size32 h.missions]
    refine Loads.bind (Loads.times' fun _ _ _ => rfl) (Loads.cons (Loads.int _ _) ?_)
    rw [Ld.sized_size32 h.log]
    refine Loads.bind (Loads.times' fun t ht => LogTopic.loads (h.entries t ht)) (Loads.cons (Loads.objAs _ h.manager)
      (Loads.cons (Loads.int _ _) ?_))
    rw [Ld.sized_size32 h.symbols]
    refine Loads.bind (Loads.timesM (k := 0) ha fun s hm i r hr => SymbolState.loads hr (h.values s hm)) ?_
    rw [guilds_data _ _ h.guilds]
    refine Loads.map (Loads.raw' _ ?_ ?_)
    · rw [flatten_length _ (encW 1) 1 (by simp), h.guilds]
    · have := Reads.times (p := Rd.u8) (enc := encW 1) x.guildAttitudes (fun a _ => Reads.u8 a)
      rwa [h.guilds] at this

/-! ### Characters -/

theorem ints_eq (l : List (BitVec 32)) : ints l = (l.map (encW 4)).flatten := by
  have := Ws.data_of_emits (Emits.foldl Ws.u32 (encW 4) Emits.u32 l)
  exact this

theorem Loads.ints {l : List (BitVec 32)} {n : Nat} (name : Bytes) (h : l.length = n) :
    Loads env φ (Ld.raw (n * 4) (Rd.times Rd.u32 n)) [fRaw name (ints l)] l := by
  subst h
  rw [ints_eq]
  refine Loads.raw' _ (flatten_length _ _ 4 (by simp)) ?_
  exact Reads.times l fun a _ => Reads.u32 a

theorem takeWhile_ne (s t : Bytes) (h : (0x3B : Byte) ∉ s) :
    (s ++ 0x3B :: t).takeWhile (· ≠ 0x3B) = s ∧ (s ++ 0x3B :: t).dropWhile (· ≠ 0x3B) = 0x3B :: t := by
  induction s with
  | nil => exact ⟨by simp, by simp⟩
  | cons a s ih =>
    simp only [List.mem_cons, not_or] at h
    obtain ⟨h1, h2⟩ := ih h.2
    have ha : (decide (a ≠ 0x3B)) = true := by simpa using Ne.symm h.1
    simp only [List.cons_append, List.takeWhile_cons, List.dropWhile_cons, ha, if_true, h1, h2, and_self]

theorem unpack_semicolon (l : List Bytes) (t : Bytes) : VNpc.unpack l (0x3B :: t) = List.replicate l.length [] := by
  induction l with
  | nil => rfl
  | cons a l ih =>
    unfold VNpc.unpack
    have h1 : (0x3B :: t : Bytes).takeWhile (· ≠ 0x3B) = [] := by simp
    have h2 : (0x3B :: t : Bytes).dropWhile (· ≠ 0x3B) = 0x3B :: t := by simp
    rw [h1, h2, if_neg (by simp), ih]
    rfl

/-- What Gothic 2 makes of the packed strings. -/
theorem unpack_pack (l o : List Bytes) (h : l.length = 9) (ho : o.length = 9) (hs : ∀ s, l.head? = some s → (0x3B : Byte) ∉ s) :
    VNpc.unpack o (VNpc.pack l) = l.take 1 ++ List.replicate 8 [] := by
  match l, o with
  | [], _ => cases h
  | _, [] => cases ho
  | s :: r :: l, a :: o =>
    have hp : ∃ t, VNpc.pack (s :: r :: l) = s ++ 0x3B :: t := by
      refine ⟨((r :: l).flatMap (· ++ b!";")).dropLast, ?_⟩
      unfold VNpc.pack
      rw [List.flatMap_cons, List.dropLast_append_of_ne_nil (by simp)]
      simp
    obtain ⟨t, ht⟩ := hp
    rw [ht]
    obtain ⟨h1, h2⟩ := takeWhile_ne s t (hs s rfl)
    unfold VNpc.unpack
    rw [h1, h2, if_neg (by simp), unpack_semicolon]
    simp only [List.length_cons] at ho
    rw [show o.length = 8 by omega]
    rfl

theorem Slot.loads {x : Slot Nat} (h : x.used = true → Typed env φ .oCItem x.item) : Loads env φ Slot.load x.save (x.copy φ) := by
  obtain ⟨used, name, item, inv⟩ := x
  cases used with
  | false => exact fun _ => rfl
  | true =>
    exact Loads.cons (Loads.bool _ _) (Loads.cons (Loads.str _ _) (Loads.cons (Loads.objAs _ (h rfl)) (fun _ => rfl)))

theorem News.loads {x : News} : Loads env φ News.load x.save x := fun _ => rfl

theorem VNpc.loadItem_loads {flag : Nat → Bool} {p : Option Nat} {i : Nat} {r : List Field} (hr : VNpc.saveItem flag (p, i) = .ok r)
    (h : ∃ a, p = some a ∧ env.is .oCItem (φ a) = true ∧ env.flag (φ a) = flag a) :
    Loads env φ (VNpc.loadItem env) r (p.map φ) := by
  obtain ⟨a, rfl, h1, h2⟩ := h
  cases hr
  refine Loads.cons (a := some (φ a)) (Loads.objAs _ ?_) ?_
  · intro b hb
    cases hb
    exact h1
  · simp only [h2]
    cases flag a <;> exact fun _ => rfl

theorem Loads.same {γ} {p : Ld P γ} {l : List γ} {g : γ → Field} {n : Nat} (hn : l.length = n)
    (hp : ∀ x ∈ l, Loads env φ p [g x] x) : Loads env φ (Ld.times n p) (l.map g) l := by
  subst hn
  have := Loads.each (h := id) hp
  rwa [List.map_id] at this

theorem Loads.numberedSame {γ} {p : Ld P γ} {l : List γ} {f : Bytes → γ → Field} {pre : Bytes} {n : Nat} (hn : l.length = n)
    (hp : ∀ x ∈ l, ∀ n, Loads env φ p [f n x] x) : Loads env φ (Ld.times n p) (Obj.numbered f pre l) l := by
  subst hn
  have := Loads.numbered (h := id) (pre := pre) hp
  rwa [List.map_id] at this

/-- The part up to the talents. -/
def VNpc.copy1 (φ : Nat → P) (b : VObj P) (x : VNpc Nat) (o : VNpc P) : VNpc P :=
  { o with
    base := b, npcInstance := x.npcInstance, modelScale := x.modelScale, modelFatness := x.modelFatness
    overlays := o.overlays ++ x.overlays
    flags := x.flags, guild := x.guild, guildTrue := x.guildTrue, level := x.level, xp := x.xp, xpNextLevel := x.xpNextLevel
    lp := x.lp
    talents := x.talents.map (Option.map φ) }

theorem VNpc.loads1 {o : VNpc P} {x : VNpc Nat} {b : VObj P} (hb : Loads env φ (VObj.load c env o.base) (x.base.save c) b)
    (h1 : Fits31 x.overlays) (h2 : Fits31 x.talents) (ht : ∀ p ∈ x.talents, Typed env φ .oCNpcTalent p) :
    Loads env φ (VNpc.load1 c env o) (x.save1 c) (VNpc.copy1 φ b x o) := by
  simp only [VNpc.save1, List.append_assoc, List.cons_append, List.nil_append]
  refine Loads.bind hb (Loads.cons (Loads.str _ _) (Loads.cons (Loads.vec3 _ _) (Loads.cons (Loads.float _ _)
    (Loads.cons (Loads.int _ _) ?_))))
  rw [rounds_size32 h1]
  refine Loads.bind (Loads.same rfl fun v _ => Loads.str _ v) (Loads.cons (Loads.int _ _) (Loads.cons (Loads.int _ _)
    (Loads.cons (Loads.int _ _) (Loads.cons (Loads.int _ _) (Loads.cons (Loads.int _ _) (Loads.cons (Loads.int _ _)
    (Loads.cons (Loads.int _ _) (Loads.cons (Loads.int _ _) ?_))))))))
  rw [Ld.sized_size32 h2]
  exact Loads.map (Loads.each fun p hp => Loads.objAs _ (ht p hp))

/-- The part up to the news. -/
def VNpc.copy2 (c : Ctx) (x : VNpc Nat) (o : VNpc P) : VNpc P :=
  { o with
    fightTactic := x.fightTactic, fightMode := x.fightMode, wounded := x.wounded, mad := x.mad, madTime := x.madTime
    player := x.player, attributes := x.attributes
    hitChance := if c.g2 then x.hitChance else o.hitChance
    missions := x.missions, startAiState := x.startAiState
    aivar := x.aivar.take (VNpc.varCount c) ++ o.aivar.drop (VNpc.varCount c)
    scriptWaypoint := x.scriptWaypoint, attitude := x.attitude, attitudeTemp := x.attitudeTemp, nameNr := x.nameNr
    news := o.news ++ x.news }

theorem VNpc.loads2 {o : VNpc P} {x : VNpc Nat} (hx : x.Sized) (hn : Fits31 x.news) :
    Loads env φ (VNpc.load2 c o) (x.save2 c) (VNpc.copy2 c x o) := by
  simp only [VNpc.save2, List.append_assoc, List.cons_append, List.nil_append]
  refine Loads.cons (Loads.int _ _) (Loads.cons (Loads.int _ _) (Loads.cons (Loads.bool _ _) (Loads.cons (Loads.bool _ _)
    (Loads.cons (Loads.int _ _) (Loads.cons (Loads.bool _ _) ?_)))))
  refine Loads.bind (Loads.numberedSame hx.attributes fun v _ n => Loads.int n v) ?_
  refine Loads.opt1 (fun _ => Loads.numberedSame hx.hitChance fun v _ n => Loads.int n v) ?_
  refine Loads.bind (Loads.numberedSame hx.missions fun v _ n => Loads.int n v) ?_
  have hv : (x.aivar.take (VNpc.varCount c)).length = VNpc.varCount c := by
    rw [List.length_take, hx.aivar]
    unfold VNpc.varCount
    split <;> rfl
  refine Loads.cons (Loads.str _ _) (Loads.cons (Loads.ints _ hv) (Loads.cons (Loads.str _ _) (Loads.cons (Loads.int _ _)
    (Loads.cons (Loads.int _ _) (Loads.cons (Loads.int _ _) (Loads.cons (a := ()) (fun _ => rfl) (Loads.cons (Loads.int _ _) ?_)))))))
  rw [rounds_size32 hn]
  exact Loads.map (Loads.times' fun _ _ => News.loads)

/-- The part up to the slots. -/
def VNpc.copy3 (c : Ctx) (env : Env P) (φ : Nat → P) (x : VNpc Nat) (o : VNpc P) : VNpc P :=
  { o with
    carryVob := (x.carryVob.map φ).filter env.vob
    enemy := (x.enemy.map φ).filter env.vob
    moveLock := x.moveLock
    packed := if c.g2 then x.packed.take 1 ++ List.replicate 8 [] else x.packed
    items := x.items.map (Option.map φ)
    slots := x.slots.map (Slot.copy φ) }

theorem VNpc.loads3 {o : VNpc P} {x : VNpc Nat} {flag : Nat → Bool} {items : List (List Field)} (ho : o.packed.length = 9)
    (hi : x.items.zipIdx.mapM (VNpc.saveItem flag) = .ok items) (h : x.Readable c env φ flag) :
    Loads env φ (VNpc.load3 c env o) (x.save3 c items.flatten) (VNpc.copy3 c env φ x o) := by
  simp only [VNpc.save3, List.append_assoc, List.cons_append, List.nil_append]
  refine Loads.cons (Loads.objVob _ _) (Loads.cons (Loads.objVob _ _) (Loads.cons (Loads.bool _ _) ?_))
  refine Loads.bind (a := if c.g2 then x.packed.take 1 ++ List.replicate 8 [] else x.packed) ?_ ?_
  · cases hc : c.g2 with
    | false =>
      simp only [if_neg Bool.false_ne_true]
      exact Loads.same h.sized.packed fun v _ => Loads.str _ v
    | true =>
      simp only [if_true]
      have hg : c.game = .g2 := by simpa [Ctx.g2] using hc
      rw [← unpack_pack x.packed o.packed h.sized.packed ho (h.semicolon hg)]
      exact Loads.map (Loads.str _ _)
  refine Loads.cons (Loads.int _ _) ?_
  rw [Ld.sized_size32 h.items]
  refine Loads.bind (Loads.timesM (k := 0) hi fun p hp i r hr => VNpc.loadItem_loads hr (h.itemTypes p hp)) ?_
  refine Loads.cons (Loads.int _ _) ?_
  have hl : (size32 x.slots).toNat = x.slots.length := by
    simp only [size32, BitVec.toNat_ofNat]
    exact Nat.mod_eq_of_lt h.slots
  rw [hl]
  exact Loads.map (Loads.times fun s hs => Slot.loads (h.slotTypes s hs))

/-- The rest. -/
def VNpc.copy4 (c : Ctx) (x : VNpc Nat) (o : VNpc P) : VNpc P :=
  { o with
    currentStateValid := x.currentStateValid, currentStateName := x.currentStateName, currentStateIndex := x.currentStateIndex
    currentStateIsRoutine := x.currentStateIsRoutine, nextStateValid := x.nextStateValid, nextStateName := x.nextStateName
    nextStateIndex := x.nextStateIndex, nextStateIsRoutine := x.nextStateIsRoutine, lastAiState := x.lastAiState
    hasRoutine := x.hasRoutine, routineChanged := x.routineChanged, routineOverlay := x.routineOverlay
    routineOverlayCount := x.routineOverlayCount, walkmodeRoutine := x.walkmodeRoutine, weaponmodeRoutine := x.weaponmodeRoutine
    startNewRoutine := x.startNewRoutine, aiStateDriven := x.aiStateDriven, aiStatePos := x.aiStatePos
    currentRoutine := x.currentRoutine, respawn := x.respawn, respawnTime := x.respawnTime, protection := x.protection
    bsInterruptableOverride := if c.g2 then x.bsInterruptableOverride else o.bsInterruptableOverride
    npcType := if c.g2 then x.npcType else o.npcType
    spellMana := if c.g2 then x.spellMana else o.spellMana }

theorem VNpc.loads4 {o : VNpc P} {x : VNpc Nat} (hx : x.protection.length = 8) :
    Loads env φ (VNpc.load4 c o) (x.save4 c) (VNpc.copy4 c x o) := by
  simp only [VNpc.save4, List.cons_append, List.nil_append]
  refine Loads.cons (Loads.bool _ _) (Loads.cons (Loads.str _ _) (Loads.cons (Loads.int _ _) (Loads.cons (Loads.bool _ _)
    (Loads.cons (Loads.bool _ _) (Loads.cons (Loads.str _ _) (Loads.cons (Loads.int _ _) (Loads.cons (Loads.bool _ _)
    (Loads.cons (Loads.int _ _) (Loads.cons (Loads.bool _ _) (Loads.cons (Loads.bool _ _) (Loads.cons (Loads.bool _ _)
    (Loads.cons (Loads.int _ _) (Loads.cons (Loads.int _ _) (Loads.cons (Loads.bool _ _) (Loads.cons (Loads.bool _ _)
    (Loads.cons (Loads.int _ _) (Loads.cons (Loads.vec3 _ _) (Loads.cons (Loads.str _ _) (Loads.cons (Loads.bool _ _)
    (Loads.cons (Loads.int _ _) (Loads.cons (Loads.ints _ hx) ?_)))))))))))))))))))))
  obtain ⟨game, save, pack⟩ := c
  cases game <;> exact fun _ => rfl

theorem VNpc.loads {o : VNpc P} {x : VNpc Nat} {flag : Nat → Bool} {b : VObj P} {fs : List Field}
    (hb : Loads env φ (VObj.load c env o.base) (x.base.save c) b) (ho : o.Sized) (hs : x.save flag c = .ok fs)
    (h : x.Readable c env φ flag) : Loads env φ (VNpc.load c env o) fs (x.copy c env φ b o) := by
  unfold VNpc.save at hs
  cases hi : x.items.zipIdx.mapM (VNpc.saveItem flag) with
  | error e => rw [hi] at hs; cases hs
  | ok items =>
    rw [hi] at hs
    cases hs
    have ha : x.copy c env φ b o = VNpc.copy4 c x (VNpc.copy3 c env φ x (VNpc.copy2 c x (VNpc.copy1 φ b x o))) := by
      have e : (if c.g2 = true then x.aivar else x.aivar.take 50 ++ o.aivar.drop 50) =
          x.aivar.take (VNpc.varCount c) ++ o.aivar.drop (VNpc.varCount c) := by
        unfold VNpc.varCount
        split
        · rw [List.take_of_length_le (by rw [h.sized.aivar]; omega), List.drop_of_length_le (by rw [ho.aivar]; omega)]
          simp
        · rfl
      simp only [VNpc.copy, e]
      rfl
    rw [ha]
    refine Loads.bind (VNpc.loads1 hb h.overlays h.talents h.talentTypes) (Loads.bind (VNpc.loads2 h.sized h.news)
      (Loads.bind (VNpc.loads3 ho.packed hi h) (VNpc.loads4 h.sized.protection)))

end Verif.Obj
