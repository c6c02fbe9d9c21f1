import Verif.Model.DaedalusMember

/-!
# The classes of the game scripts (`src/addon/daedalus.cc`, `include/zenkit/addon/daedalus.hh`)

The tables of this file are transcribed from the source, with the fields in the order of their declaration and the registrations in
the order of the calls.
-/

namespace Verif.ScriptClasses

open Verif.Daedalus

/-- A field of a class (`include/zenkit/addon/daedalus.hh`): its name, its type and the number of its elements. Enumerations of
four bytes and `func` count as `int`. -/
structure FieldDecl where
  name : Bytes
  type : FieldType
  elems : Nat
  deriving DecidableEq, Repr

/-- One call `s.register_member("CLASS.MEMBER", &Class::field)`, with the name of the member of the class the existence of which
is asked for before (`REG_IF_SYM_EXIST`, or an `if` around a few calls). -/
structure Reg where
  member : Bytes
  field : Bytes
  guard : Option Bytes := none
  deriving DecidableEq, Repr

/-- A class: its symbol in the scripts (`src/addon/daedalus.cc:15-36`), its fields and its `register_`. The name of a member in the
scripts is made of the symbol, a dot and the name of the member. -/
structure ScriptClass where
  symbol : Bytes
  fields : List FieldDecl
  regs : List Reg
  deriving DecidableEq, Repr

def str (name : Bytes) (n : Nat := 1) : FieldDecl := ⟨name, .string, n⟩
def flt (name : Bytes) (n : Nat := 1) : FieldDecl := ⟨name, .float, n⟩
def int (name : Bytes) (n : Nat := 1) : FieldDecl := ⟨name, .int, n⟩

def reg (member field : Bytes) : Reg := ⟨member, field, none⟩
def opt (member field : Bytes) : Reg := ⟨member, field, some member⟩
def when_ (guard member field : Bytes) : Reg := ⟨member, field, some guard⟩

/-- `struct IGuildValues` (`include/zenkit/addon/daedalus.hh:22-58`, `src/addon/daedalus.cc:44-81`). -/
def iGuildValues : ScriptClass where
  symbol := b!"C_GILVALUES"
  fields :=
    [int b!"water_depth_knee" 66, int b!"water_depth_chest" 66, int b!"jumpup_height" 66, int b!"swim_time" 66,
     int b!"dive_time" 66, int b!"step_height" 66, int b!"jumplow_height" 66, int b!"jumpmid_height" 66,
     int b!"slide_angle" 66, int b!"slide_angle2" 66, int b!"disable_autoroll" 66, int b!"surface_align" 66,
     int b!"climb_heading_angle" 66, int b!"climb_horiz_angle" 66, int b!"climb_ground_angle" 66,
     int b!"fight_range_base" 66, int b!"fight_range_fist" 66, int b!"fight_range_g" 66, int b!"fight_range_1hs" 66,
     int b!"fight_range_1ha" 66, int b!"fight_range_2hs" 66, int b!"fight_range_2ha" 66, int b!"falldown_height" 66,
     int b!"falldown_damage" 66, int b!"blood_disabled" 66, int b!"blood_max_distance" 66, int b!"blood_amount" 66,
     int b!"blood_flow" 66, str b!"blood_emitter" 66, str b!"blood_texture" 66, int b!"turn_speed" 66]
  regs :=
    [reg b!"WATER_DEPTH_KNEE" b!"water_depth_knee", reg b!"WATER_DEPTH_CHEST" b!"water_depth_chest",
     reg b!"JUMPUP_HEIGHT" b!"jumpup_height", reg b!"SWIM_TIME" b!"swim_time", reg b!"DIVE_TIME" b!"dive_time",
     reg b!"STEP_HEIGHT" b!"step_height", reg b!"JUMPLOW_HEIGHT" b!"jumplow_height",
     reg b!"JUMPMID_HEIGHT" b!"jumpmid_height", reg b!"SLIDE_ANGLE" b!"slide_angle", reg b!"SLIDE_ANGLE2" b!"slide_angle2",
     reg b!"DISABLE_AUTOROLL" b!"disable_autoroll", reg b!"SURFACE_ALIGN" b!"surface_align",
     reg b!"CLIMB_HEADING_ANGLE" b!"climb_heading_angle", reg b!"CLIMB_HORIZ_ANGLE" b!"climb_horiz_angle",
     reg b!"CLIMB_GROUND_ANGLE" b!"climb_ground_angle", reg b!"FIGHT_RANGE_BASE" b!"fight_range_base",
     reg b!"FIGHT_RANGE_FIST" b!"fight_range_fist", reg b!"FIGHT_RANGE_1HS" b!"fight_range_1hs",
     reg b!"FIGHT_RANGE_1HA" b!"fight_range_1ha", reg b!"FIGHT_RANGE_2HS" b!"fight_range_2hs",
     reg b!"FIGHT_RANGE_2HA" b!"fight_range_2ha", reg b!"FALLDOWN_HEIGHT" b!"falldown_height",
     reg b!"FALLDOWN_DAMAGE" b!"falldown_damage", reg b!"BLOOD_DISABLED" b!"blood_disabled",
     reg b!"BLOOD_MAX_DISTANCE" b!"blood_max_distance", reg b!"BLOOD_AMOUNT" b!"blood_amount",
     reg b!"BLOOD_FLOW" b!"blood_flow", reg b!"BLOOD_EMITTER" b!"blood_emitter", reg b!"BLOOD_TEXTURE" b!"blood_texture",
     reg b!"TURN_SPEED" b!"turn_speed", opt b!"FIGHT_RANGE_G" b!"fight_range_g"]

/-- `struct INpc` (`include/zenkit/addon/daedalus.hh:178-219`, `src/addon/daedalus.cc:148-190`). -/
def iNpc : ScriptClass where
  symbol := b!"C_NPC"
  fields :=
    [int b!"id", str b!"name" 5, str b!"slot", str b!"effect", int b!"type", int b!"flags", int b!"attribute" 8,
     int b!"hitchance" 5, int b!"protection" 8, int b!"damage" 8, int b!"damage_type", int b!"guild", int b!"level",
     int b!"mission" 5, int b!"fight_tactic", int b!"weapon", int b!"voice", int b!"voice_pitch", int b!"body_mass",
     int b!"daily_routine", int b!"start_aistate", str b!"spawnpoint", int b!"spawn_delay", int b!"senses",
     int b!"senses_range", int b!"aivar" 100, str b!"wp", int b!"exp", int b!"exp_next", int b!"lp",
     int b!"bodystate_interruptable_override", int b!"no_focus"]
  regs :=
    [reg b!"ID" b!"id", reg b!"NAME" b!"name", reg b!"SLOT" b!"slot", reg b!"NPCTYPE" b!"type", reg b!"FLAGS" b!"flags",
     reg b!"ATTRIBUTE" b!"attribute", reg b!"PROTECTION" b!"protection", reg b!"DAMAGE" b!"damage",
     reg b!"DAMAGETYPE" b!"damage_type", reg b!"GUILD" b!"guild", reg b!"LEVEL" b!"level", reg b!"MISSION" b!"mission",
     reg b!"FIGHT_TACTIC" b!"fight_tactic", reg b!"WEAPON" b!"weapon", reg b!"VOICE" b!"voice",
     reg b!"VOICEPITCH" b!"voice_pitch", reg b!"BODYMASS" b!"body_mass", reg b!"DAILY_ROUTINE" b!"daily_routine",
     reg b!"START_AISTATE" b!"start_aistate", reg b!"SPAWNPOINT" b!"spawnpoint", reg b!"SPAWNDELAY" b!"spawn_delay",
     reg b!"SENSES" b!"senses", reg b!"SENSES_RANGE" b!"senses_range", reg b!"AIVAR" b!"aivar", reg b!"WP" b!"wp",
     reg b!"EXP" b!"exp", reg b!"EXP_NEXT" b!"exp_next", reg b!"LP" b!"lp", opt b!"HITCHANCE" b!"hitchance",
     when_ b!"HITCHANCE" b!"BODYSTATEINTERRUPTABLEOVERRIDE" b!"bodystate_interruptable_override",
     when_ b!"HITCHANCE" b!"NOFOCUS" b!"no_focus", opt b!"EFFECT" b!"effect"]

/-- `struct IMission` (`include/zenkit/addon/daedalus.hh:221-237`, `src/addon/daedalus.cc:192-207`). -/
def iMission : ScriptClass where
  symbol := b!"C_MISSION"
  fields :=
    [str b!"name", str b!"description", int b!"duration", int b!"important", int b!"offer_conditions", int b!"offer",
     int b!"success_conditions", int b!"success", int b!"failure_conditions", int b!"failure", int b!"obsolete_conditions",
     int b!"obsolete", int b!"running"]
  regs :=
    [reg b!"NAME" b!"name", reg b!"DESCRIPTION" b!"description", reg b!"DURATION" b!"duration",
     reg b!"IMPORTANT" b!"important", reg b!"OFFERCONDITIONS" b!"offer_conditions", reg b!"OFFER" b!"offer",
     reg b!"SUCCESSCONDITIONS" b!"success_conditions", reg b!"SUCCESS" b!"success",
     reg b!"FAILURECONDITIONS" b!"failure_conditions", reg b!"FAILURE" b!"failure",
     reg b!"OBSOLETECONDITIONS" b!"obsolete_conditions", reg b!"OBSOLETE" b!"obsolete", reg b!"RUNNING" b!"running"]

/-- `struct IItem` (`include/zenkit/addon/daedalus.hh:266-317`, `src/addon/daedalus.cc:209-263`). -/
def iItem : ScriptClass where
  symbol := b!"C_ITEM"
  fields :=
    [int b!"id", str b!"name", str b!"name_id", int b!"hp", int b!"hp_max", int b!"main_flag", int b!"flags", int b!"weight",
     int b!"value", int b!"damage_type", int b!"damage_total", int b!"damage" 8, int b!"wear", int b!"protection" 8,
     int b!"nutrition", int b!"cond_atr" 3, int b!"cond_value" 3, int b!"change_atr" 3, int b!"change_value" 3,
     int b!"magic", int b!"on_equip", int b!"on_unequip", int b!"on_state" 4, int b!"owner", int b!"owner_guild",
     int b!"disguise_guild", str b!"visual", str b!"visual_change", str b!"effect", int b!"visual_skin", str b!"scheme_name",
     int b!"material", int b!"munition", int b!"spell", int b!"range", int b!"mag_circle", str b!"description",
     str b!"text" 6, int b!"count" 6, int b!"inv_zbias", int b!"inv_rot_x", int b!"inv_rot_y", int b!"inv_rot_z",
     int b!"inv_animate"]
  regs :=
    [reg b!"ID" b!"id", reg b!"NAME" b!"name", reg b!"NAMEID" b!"name_id", reg b!"HP" b!"hp", reg b!"HP_MAX" b!"hp_max",
     reg b!"MAINFLAG" b!"main_flag", reg b!"FLAGS" b!"flags", reg b!"WEIGHT" b!"weight", reg b!"VALUE" b!"value",
     reg b!"DAMAGETYPE" b!"damage_type", reg b!"DAMAGETOTAL" b!"damage_total", reg b!"DAMAGE" b!"damage",
     reg b!"WEAR" b!"wear", reg b!"PROTECTION" b!"protection", reg b!"NUTRITION" b!"nutrition",
     reg b!"COND_ATR" b!"cond_atr", reg b!"COND_VALUE" b!"cond_value", reg b!"CHANGE_ATR" b!"change_atr",
     reg b!"CHANGE_VALUE" b!"change_value", reg b!"MAGIC" b!"magic", reg b!"ON_EQUIP" b!"on_equip",
     reg b!"ON_UNEQUIP" b!"on_unequip", reg b!"ON_STATE" b!"on_state", reg b!"OWNER" b!"owner",
     reg b!"OWNERGUILD" b!"owner_guild", reg b!"DISGUISEGUILD" b!"disguise_guild", reg b!"VISUAL" b!"visual",
     reg b!"VISUAL_CHANGE" b!"visual_change", reg b!"VISUAL_SKIN" b!"visual_skin", reg b!"SCEMENAME" b!"scheme_name",
     reg b!"MATERIAL" b!"material", reg b!"MUNITION" b!"munition", reg b!"SPELL" b!"spell", reg b!"RANGE" b!"range",
     reg b!"MAG_CIRCLE" b!"mag_circle", reg b!"DESCRIPTION" b!"description", reg b!"TEXT" b!"text", reg b!"COUNT" b!"count",
     opt b!"INV_ZBIAS" b!"inv_zbias", when_ b!"INV_ZBIAS" b!"INV_ROTX" b!"inv_rot_x",
     when_ b!"INV_ZBIAS" b!"INV_ROTY" b!"inv_rot_y", when_ b!"INV_ZBIAS" b!"INV_ROTZ" b!"inv_rot_z",
     when_ b!"INV_ZBIAS" b!"INV_ANIMATE" b!"inv_animate", opt b!"EFFECT" b!"effect"]

/-- `struct IFocus` (`include/zenkit/addon/daedalus.hh:319-341`, `src/addon/daedalus.cc:265-286`). -/
def iFocus : ScriptClass where
  symbol := b!"C_FOCUS"
  fields :=
    [flt b!"npc_longrange", flt b!"npc_range1", flt b!"npc_range2", flt b!"npc_azi", flt b!"npc_elevdo", flt b!"npc_elevup",
     int b!"npc_prio", flt b!"item_range1", flt b!"item_range2", flt b!"item_azi", flt b!"item_elevdo", flt b!"item_elevup",
     int b!"item_prio", flt b!"mob_range1", flt b!"mob_range2", flt b!"mob_azi", flt b!"mob_elevdo", flt b!"mob_elevup",
     int b!"mob_prio"]
  regs :=
    [reg b!"NPC_LONGRANGE" b!"npc_longrange", reg b!"NPC_RANGE1" b!"npc_range1", reg b!"NPC_RANGE2" b!"npc_range2",
     reg b!"NPC_AZI" b!"npc_azi", reg b!"NPC_ELEVDO" b!"npc_elevdo", reg b!"NPC_ELEVUP" b!"npc_elevup",
     reg b!"NPC_PRIO" b!"npc_prio", reg b!"ITEM_RANGE1" b!"item_range1", reg b!"ITEM_RANGE2" b!"item_range2",
     reg b!"ITEM_AZI" b!"item_azi", reg b!"ITEM_ELEVDO" b!"item_elevdo", reg b!"ITEM_ELEVUP" b!"item_elevup",
     reg b!"ITEM_PRIO" b!"item_prio", reg b!"MOB_RANGE1" b!"mob_range1", reg b!"MOB_RANGE2" b!"mob_range2",
     reg b!"MOB_AZI" b!"mob_azi", reg b!"MOB_ELEVDO" b!"mob_elevdo", reg b!"MOB_ELEVUP" b!"mob_elevup",
     reg b!"MOB_PRIO" b!"mob_prio"]

/-- `struct IInfo` (`include/zenkit/addon/daedalus.hh:348-364`, `src/addon/daedalus.cc:288-298`). -/
def iInfo : ScriptClass where
  symbol := b!"C_INFO"
  fields :=
    [int b!"npc", int b!"nr", int b!"important", int b!"condition", int b!"information", str b!"description", int b!"trade",
     int b!"permanent"]
  regs :=
    [reg b!"NPC" b!"npc", reg b!"NR" b!"nr", reg b!"IMPORTANT" b!"important", reg b!"CONDITION" b!"condition",
     reg b!"INFORMATION" b!"information", reg b!"DESCRIPTION" b!"description", reg b!"TRADE" b!"trade",
     reg b!"PERMANENT" b!"permanent"]

/-- `struct IItemReact` (`include/zenkit/addon/daedalus.hh:366-376`, `src/addon/daedalus.cc:308-317`). -/
def iItemReact : ScriptClass where
  symbol := b!"C_ITEMREACT"
  fields :=
    [int b!"npc", int b!"trade_item", int b!"trade_amount", int b!"requested_cat", int b!"requested_item",
     int b!"requested_amount", int b!"reaction"]
  regs :=
    [reg b!"NPC" b!"npc", reg b!"TRADE_ITEM" b!"trade_item", reg b!"TRADE_AMOUNT" b!"trade_amount",
     reg b!"REQUESTED_CAT" b!"requested_cat", reg b!"REQUESTED_ITEM" b!"requested_item",
     reg b!"REQUESTED_AMOUNT" b!"requested_amount", reg b!"REACTION" b!"reaction"]

/-- `struct ISpell` (`include/zenkit/addon/daedalus.hh:378-393`, `src/addon/daedalus.cc:319-333`). -/
def iSpell : ScriptClass where
  symbol := b!"C_SPELL"
  fields :=
    [flt b!"time_per_mana", int b!"damage_per_level", int b!"damage_type", int b!"spell_type",
     int b!"can_turn_during_invest", int b!"can_change_target_during_invest", int b!"is_multi_effect",
     int b!"target_collect_algo", int b!"target_collect_type", int b!"target_collect_range", int b!"target_collect_azi",
     int b!"target_collect_elev"]
  regs :=
    [reg b!"TIME_PER_MANA" b!"time_per_mana", reg b!"DAMAGE_PER_LEVEL" b!"damage_per_level",
     reg b!"DAMAGETYPE" b!"damage_type", reg b!"SPELLTYPE" b!"spell_type",
     reg b!"CANTURNDURINGINVEST" b!"can_turn_during_invest",
     reg b!"CANCHANGETARGETDURINGINVEST" b!"can_change_target_during_invest", reg b!"ISMULTIEFFECT" b!"is_multi_effect",
     reg b!"TARGETCOLLECTALGO" b!"target_collect_algo", reg b!"TARGETCOLLECTTYPE" b!"target_collect_type",
     reg b!"TARGETCOLLECTRANGE" b!"target_collect_range", reg b!"TARGETCOLLECTAZI" b!"target_collect_azi",
     reg b!"TARGETCOLLECTELEV" b!"target_collect_elev"]

def iSvmFields1 : List FieldDecl :=
  [str b!"mil_greetings", str b!"pal_greetings", str b!"weather", str b!"iget_you_still", str b!"die_enemy",
   str b!"die_monster", str b!"addon_die_monster", str b!"addon_die_monster_2", str b!"dirty_thief", str b!"hands_off",
   str b!"sheep_killer", str b!"sheep_killer_monster", str b!"you_murderer", str b!"die_stupid_beast",
   str b!"you_dare_hit_me", str b!"you_asked_for_it", str b!"then_ibeat_you_out_of_here", str b!"what_did_you_do_in_there",
   str b!"will_you_stop_fighting", str b!"kill_enemy", str b!"enemy_killed", str b!"monster_killed",
   str b!"addon_monster_killed", str b!"addon_monster_killed_2", str b!"thief_down", str b!"rumfummler_down",
   str b!"sheep_attacker_down", str b!"kill_murderer", str b!"stupid_beast_killed", str b!"never_hit_me_again",
   str b!"you_better_should_have_listened", str b!"get_up_and_begone", str b!"never_enter_room_again",
   str b!"there_is_no_fighting_here", str b!"spare_me", str b!"run_away", str b!"alarm", str b!"guards", str b!"help",
   str b!"good_monster_kill", str b!"good_kill", str b!"not_now", str b!"run_coward", str b!"get_out_of_here",
   str b!"why_are_you_in_here", str b!"yes_go_out_of_here", str b!"whats_this_supposed_to_be",
   str b!"you_disturbed_my_slumber", str b!"itook_your_gold", str b!"shit_no_gold", str b!"itake_your_weapon",
   str b!"what_are_you_doing", str b!"looking_for_trouble_again", str b!"stop_magic", str b!"isaid_stop_magic",
   str b!"weapon_down", str b!"isaid_weapon_down", str b!"wise_move", str b!"next_time_youre_in_for_it", str b!"oh_my_head",
   str b!"theres_afight", str b!"oh_my_god_its_afight", str b!"good_victory", str b!"not_bad", str b!"oh_my_god_hes_down",
   str b!"cheer_friend_01", str b!"cheer_friend_02", str b!"cheer_friend_03", str b!"ooh_01", str b!"ooh_02", str b!"ooh_03",
   str b!"what_was_that", str b!"get_out_of_my_bed", str b!"awake", str b!"abs_commander", str b!"abs_monastery",
   str b!"abs_farm", str b!"abs_good", str b!"sheep_killer_crime", str b!"attack_crime", str b!"theft_crime",
   str b!"murder_crime", str b!"pal_city_crime", str b!"mil_city_crime", str b!"city_crime", str b!"mona_crime",
   str b!"farm_crime", str b!"oc_crime", str b!"toughguy_attack_lost", str b!"toughguy_attack_won",
   str b!"toughguy_player_attack", str b!"gold_1000", str b!"gold_950", str b!"gold_900", str b!"gold_850", str b!"gold_800",
   str b!"gold_750", str b!"gold_700", str b!"gold_650", str b!"gold_600"]

def iSvmFields2 : List FieldDecl :=
  [str b!"gold_550", str b!"gold_500", str b!"gold_450", str b!"gold_400", str b!"gold_350", str b!"gold_300",
   str b!"gold_250", str b!"gold_200", str b!"gold_150", str b!"gold_100", str b!"gold_90", str b!"gold_80", str b!"gold_70",
   str b!"gold_60", str b!"gold_50", str b!"gold_40", str b!"gold_30", str b!"gold_20", str b!"gold_10",
   str b!"smalltalk_01", str b!"smalltalk_02", str b!"smalltalk_03", str b!"smalltalk_04", str b!"smalltalk_05",
   str b!"smalltalk_06", str b!"smalltalk_07", str b!"smalltalk_08", str b!"smalltalk_09", str b!"smalltalk_10",
   str b!"smalltalk_11", str b!"smalltalk_12", str b!"smalltalk_13", str b!"smalltalk_14", str b!"smalltalk_15",
   str b!"smalltalk_16", str b!"smalltalk_17", str b!"smalltalk_18", str b!"smalltalk_19", str b!"smalltalk_20",
   str b!"smalltalk_21", str b!"smalltalk_22", str b!"smalltalk_23", str b!"smalltalk_24", str b!"smalltalk_25",
   str b!"smalltalk_26", str b!"smalltalk_27", str b!"smalltalk_28", str b!"smalltalk_29", str b!"smalltalk_30",
   str b!"no_learn_no_points", str b!"no_learn_over_personal_max", str b!"no_learn_youre_better",
   str b!"you_learned_something", str b!"unterstadt", str b!"oberstadt", str b!"tempel", str b!"markt", str b!"galgen",
   str b!"kaserne", str b!"hafen", str b!"whereto", str b!"oberstadt_2_unterstadt", str b!"unterstadt_2_oberstadt",
   str b!"unterstadt_2_tempel", str b!"unterstadt_2_hafen", str b!"tempel_2_unterstadt", str b!"tempel_2_markt",
   str b!"tempel_2_galgen", str b!"markt_2_tempel", str b!"markt_2_kaserne", str b!"markt_2_galgen", str b!"galgen_2_tempel",
   str b!"galgen_2_markt", str b!"galgen_2_kaserne", str b!"kaserne_2_markt", str b!"kaserne_2_galgen",
   str b!"hafen_2_unterstadt", str b!"dead", str b!"aargh_1", str b!"aargh_2", str b!"aargh_3", str b!"addon_wrong_armor",
   str b!"addon_wrong_armor_sld", str b!"addon_wrong_armor_mil", str b!"addon_wrong_armor_kdf", str b!"addon_no_armor_bdt",
   str b!"addon_die_bandit", str b!"addon_dirty_pirate", str b!"sc_hey_turn_around", str b!"sc_hey_turn_around_02",
   str b!"sc_hey_turn_around_03", str b!"sc_hey_turn_around_04", str b!"sc_hey_wait_asecond", str b!"doesnt_mork",
   str b!"pick_broke", str b!"need_key", str b!"no_more_picks", str b!"no_pick_lock_talent", str b!"no_sweeping",
   str b!"pick_lock_or_key_missing"]

def iSvmFields3 : List FieldDecl :=
  [str b!"key_missing", str b!"pick_lock_missing", str b!"never_open", str b!"missing_item", str b!"dont_know",
   str b!"nothing_to_get", str b!"nothing_to_get_02", str b!"nothing_to_get_03", str b!"heal_shrine",
   str b!"heal_last_shrine", str b!"irdorath_there_you_are", str b!"sc_opens_irdorath_book", str b!"sc_opens_last_door",
   str b!"trade_1", str b!"trade_2", str b!"trade_3", str b!"verstehe", str b!"found_treasure", str b!"cant_understand_this",
   str b!"cant_read_this", str b!"stoneplate_1", str b!"stoneplate_2", str b!"stoneplate_3", str b!"cough", str b!"hui",
   str b!"addon_this_little_bastard", str b!"addon_open_adanos_temple", str b!"attentat_addon_description",
   str b!"attentat_addon_description_2", str b!"attentat_addon_pro", str b!"attentat_addon_contra",
   str b!"mine_addon_description", str b!"addon_summon_ancient_ghost", str b!"addon_ancient_ghost_not_near",
   str b!"addon_gold_description", str b!"watch_your_aim", str b!"watch_your_aim_angry",
   str b!"lets_forget_our_little_fight", str b!"strange", str b!"die_mortal_enemy", str b!"now_wait",
   str b!"now_wait_intruder", str b!"you_still_not_have_enough", str b!"you_attacked_my_charge",
   str b!"iwill_teach_you_respect_for_foreign_property", str b!"you_killed_one_of_us", str b!"berzerk",
   str b!"youll_be_sorry_for_this", str b!"yes_yes", str b!"shit_what_amonster", str b!"we_will_meet_again",
   str b!"never_try_that_again", str b!"itook_your_ore", str b!"shit_no_ore", str b!"you_violated_forbidden_territory",
   str b!"you_wanna_fool_me", str b!"what_did_you_in_there", str b!"intruder_alert", str b!"behind_you", str b!"hey_hey_hey",
   str b!"cheer_fight", str b!"cheer_friend", str b!"ooh", str b!"yeah_well_done", str b!"he_defeatedhim",
   str b!"he_deserv_edit", str b!"he_killed_him", str b!"it_was_agood_fight", str b!"friendly_greetings",
   str b!"al_greetings", str b!"mage_greetings", str b!"sect_greetings", str b!"there_he_is", str b!"no_learn_over_max",
   str b!"no_learn_you_already_know", str b!"hey_you", str b!"what_do_you_want", str b!"isaid_what_do_you_want",
   str b!"make_way", str b!"out_of_my_way", str b!"you_deaf_or_what", str b!"look_away", str b!"okay_keep_it",
   str b!"whats_that", str b!"thats_my_weapon", str b!"give_it_tome", str b!"you_can_keep_the_crap",
   str b!"they_killed_my_friend", str b!"sucker_got_some", str b!"sucker_defeated_ebr", str b!"sucker_defeated_gur",
   str b!"sucker_defeated_mage", str b!"sucker_defeated_nov_guard", str b!"sucker_defeated_vlk_guard",
   str b!"you_defeated_my_comrade", str b!"you_defeated_nov_guard", str b!"you_defeated_vlk_guard",
   str b!"you_stole_from_me", str b!"you_stole_from_us", str b!"you_stole_from_ebr"]

def iSvmFields4 : List FieldDecl :=
  [str b!"you_stole_from_gur", str b!"stole_urom_mage", str b!"you_killedmyfriend", str b!"you_killed_ebr",
   str b!"you_killed_gur", str b!"you_killed_mage", str b!"you_killed_oc_folk", str b!"you_killed_nc_folk",
   str b!"you_killed_psi_folk", str b!"get_things_right", str b!"you_defeated_me_well", str b!"om"]

def iSvmRegs1 : List Reg :=
  [opt b!"MILGREETINGS" b!"mil_greetings", opt b!"PALGREETINGS" b!"pal_greetings", opt b!"WEATHER" b!"weather",
   opt b!"IGETYOUSTILL" b!"iget_you_still", opt b!"DIEENEMY" b!"die_enemy", opt b!"DIEMONSTER" b!"die_monster",
   opt b!"ADDON_DIEMONSTER" b!"addon_die_monster", opt b!"ADDON_DIEMONSTER2" b!"addon_die_monster_2",
   opt b!"DIRTYTHIEF" b!"dirty_thief", opt b!"HANDSOFF" b!"hands_off", opt b!"SHEEPKILLER" b!"sheep_killer",
   opt b!"SHEEPKILLERMONSTER" b!"sheep_killer_monster", opt b!"YOUMURDERER" b!"you_murderer",
   opt b!"DIESTUPIDBEAST" b!"die_stupid_beast", opt b!"YOUDAREHITME" b!"you_dare_hit_me",
   opt b!"YOUASKEDFORIT" b!"you_asked_for_it", opt b!"THENIBEATYOUOUTOFHERE" b!"then_ibeat_you_out_of_here",
   opt b!"WHATDIDYOUDOINTHERE" b!"what_did_you_do_in_there", opt b!"WILLYOUSTOPFIGHTING" b!"will_you_stop_fighting",
   opt b!"KILLENEMY" b!"kill_enemy", opt b!"ENEMYKILLED" b!"enemy_killed", opt b!"MONSTERKILLED" b!"monster_killed",
   opt b!"ADDON_MONSTERKILLED" b!"addon_monster_killed", opt b!"ADDON_MONSTERKILLED2" b!"addon_monster_killed_2",
   opt b!"THIEFDOWN" b!"thief_down", opt b!"RUMFUMMLERDOWN" b!"rumfummler_down",
   opt b!"SHEEPATTACKERDOWN" b!"sheep_attacker_down", opt b!"KILLMURDERER" b!"kill_murderer",
   opt b!"STUPIDBEASTKILLED" b!"stupid_beast_killed", opt b!"NEVERHITMEAGAIN" b!"never_hit_me_again",
   opt b!"YOUBETTERSHOULDHAVELISTENED" b!"you_better_should_have_listened", opt b!"GETUPANDBEGONE" b!"get_up_and_begone",
   opt b!"NEVERENTERROOMAGAIN" b!"never_enter_room_again", opt b!"THEREISNOFIGHTINGHERE" b!"there_is_no_fighting_here",
   opt b!"SPAREME" b!"spare_me", opt b!"RUNAWAY" b!"run_away", opt b!"ALARM" b!"alarm", opt b!"GUARDS" b!"guards",
   opt b!"HELP" b!"help", opt b!"GOODMONSTERKILL" b!"good_monster_kill", opt b!"GOODKILL" b!"good_kill",
   opt b!"NOTNOW" b!"not_now", opt b!"RUNCOWARD" b!"run_coward", opt b!"GETOUTOFHERE" b!"get_out_of_here",
   opt b!"WHYAREYOUINHERE" b!"why_are_you_in_here", opt b!"YESGOOUTOFHERE" b!"yes_go_out_of_here",
   opt b!"WHATSTHISSUPPOSEDTOBE" b!"whats_this_supposed_to_be", opt b!"YOUDISTURBEDMYSLUMBER" b!"you_disturbed_my_slumber",
   opt b!"ITOOKYOURGOLD" b!"itook_your_gold", opt b!"SHITNOGOLD" b!"shit_no_gold",
   opt b!"ITAKEYOURWEAPON" b!"itake_your_weapon", opt b!"WHATAREYOUDOING" b!"what_are_you_doing",
   opt b!"LOOKINGFORTROUBLEAGAIN" b!"looking_for_trouble_again", opt b!"STOPMAGIC" b!"stop_magic",
   opt b!"ISAIDSTOPMAGIC" b!"isaid_stop_magic", opt b!"WEAPONDOWN" b!"weapon_down",
   opt b!"ISAIDWEAPONDOWN" b!"isaid_weapon_down", opt b!"WISEMOVE" b!"wise_move",
   opt b!"NEXTTIMEYOUREINFORIT" b!"next_time_youre_in_for_it", opt b!"OHMYHEAD" b!"oh_my_head",
   opt b!"THERESAFIGHT" b!"theres_afight", opt b!"OHMYGODITSAFIGHT" b!"oh_my_god_its_afight",
   opt b!"GOODVICTORY" b!"good_victory", opt b!"NOTBAD" b!"not_bad", opt b!"OHMYGODHESDOWN" b!"oh_my_god_hes_down",
   opt b!"CHEERFRIEND01" b!"cheer_friend_01", opt b!"CHEERFRIEND02" b!"cheer_friend_02",
   opt b!"CHEERFRIEND03" b!"cheer_friend_03", opt b!"OOH01" b!"ooh_01", opt b!"OOH02" b!"ooh_02", opt b!"OOH03" b!"ooh_03",
   opt b!"WHATWASTHAT" b!"what_was_that", opt b!"GETOUTOFMYBED" b!"get_out_of_my_bed", opt b!"AWAKE" b!"awake",
   opt b!"ABS_COMMANDER" b!"abs_commander", opt b!"ABS_MONASTERY" b!"abs_monastery", opt b!"ABS_FARM" b!"abs_farm",
   opt b!"ABS_GOOD" b!"abs_good", opt b!"SHEEPKILLER_CRIME" b!"sheep_killer_crime", opt b!"ATTACK_CRIME" b!"attack_crime",
   opt b!"THEFT_CRIME" b!"theft_crime", opt b!"MURDER_CRIME" b!"murder_crime", opt b!"PAL_CITY_CRIME" b!"pal_city_crime",
   opt b!"MIL_CITY_CRIME" b!"mil_city_crime", opt b!"CITY_CRIME" b!"city_crime", opt b!"MONA_CRIME" b!"mona_crime",
   opt b!"FARM_CRIME" b!"farm_crime", opt b!"OC_CRIME" b!"oc_crime", opt b!"TOUGHGUY_ATTACKLOST" b!"toughguy_attack_lost",
   opt b!"TOUGHGUY_ATTACKWON" b!"toughguy_attack_won", opt b!"TOUGHGUY_PLAYERATTACK" b!"toughguy_player_attack",
   opt b!"GOLD_1000" b!"gold_1000", opt b!"GOLD_950" b!"gold_950", opt b!"GOLD_900" b!"gold_900",
   opt b!"GOLD_850" b!"gold_850", opt b!"GOLD_800" b!"gold_800", opt b!"GOLD_750" b!"gold_750",
   opt b!"GOLD_700" b!"gold_700", opt b!"GOLD_650" b!"gold_650", opt b!"GOLD_600" b!"gold_600"]

def iSvmRegs2 : List Reg :=
  [opt b!"GOLD_550" b!"gold_550", opt b!"GOLD_500" b!"gold_500", opt b!"GOLD_450" b!"gold_450",
   opt b!"GOLD_400" b!"gold_400", opt b!"GOLD_350" b!"gold_350", opt b!"GOLD_300" b!"gold_300",
   opt b!"GOLD_250" b!"gold_250", opt b!"GOLD_200" b!"gold_200", opt b!"GOLD_150" b!"gold_150",
   opt b!"GOLD_100" b!"gold_100", opt b!"GOLD_90" b!"gold_90", opt b!"GOLD_80" b!"gold_80", opt b!"GOLD_70" b!"gold_70",
   opt b!"GOLD_60" b!"gold_60", opt b!"GOLD_50" b!"gold_50", opt b!"GOLD_40" b!"gold_40", opt b!"GOLD_30" b!"gold_30",
   opt b!"GOLD_20" b!"gold_20", opt b!"GOLD_10" b!"gold_10", opt b!"SMALLTALK01" b!"smalltalk_01",
   opt b!"SMALLTALK02" b!"smalltalk_02", opt b!"SMALLTALK03" b!"smalltalk_03", opt b!"SMALLTALK04" b!"smalltalk_04",
   opt b!"SMALLTALK05" b!"smalltalk_05", opt b!"SMALLTALK06" b!"smalltalk_06", opt b!"SMALLTALK07" b!"smalltalk_07",
   opt b!"SMALLTALK08" b!"smalltalk_08", opt b!"SMALLTALK09" b!"smalltalk_09", opt b!"SMALLTALK10" b!"smalltalk_10",
   opt b!"SMALLTALK11" b!"smalltalk_11", opt b!"SMALLTALK12" b!"smalltalk_12", opt b!"SMALLTALK13" b!"smalltalk_13",
   opt b!"SMALLTALK14" b!"smalltalk_14", opt b!"SMALLTALK15" b!"smalltalk_15", opt b!"SMALLTALK16" b!"smalltalk_16",
   opt b!"SMALLTALK17" b!"smalltalk_17", opt b!"SMALLTALK18" b!"smalltalk_18", opt b!"SMALLTALK19" b!"smalltalk_19",
   opt b!"SMALLTALK20" b!"smalltalk_20", opt b!"SMALLTALK21" b!"smalltalk_21", opt b!"SMALLTALK22" b!"smalltalk_22",
   opt b!"SMALLTALK23" b!"smalltalk_23", opt b!"SMALLTALK24" b!"smalltalk_24", opt b!"SMALLTALK25" b!"smalltalk_25",
   opt b!"SMALLTALK26" b!"smalltalk_26", opt b!"SMALLTALK27" b!"smalltalk_27", opt b!"SMALLTALK28" b!"smalltalk_28",
   opt b!"SMALLTALK29" b!"smalltalk_29", opt b!"SMALLTALK30" b!"smalltalk_30",
   opt b!"NOLEARNNOPOINTS" b!"no_learn_no_points", opt b!"NOLEARNOVERPERSONALMAX" b!"no_learn_over_personal_max",
   opt b!"NOLEARNYOUREBETTER" b!"no_learn_youre_better", opt b!"YOULEARNEDSOMETHING" b!"you_learned_something",
   opt b!"UNTERSTADT" b!"unterstadt", opt b!"OBERSTADT" b!"oberstadt", opt b!"TEMPEL" b!"tempel", opt b!"MARKT" b!"markt",
   opt b!"GALGEN" b!"galgen", opt b!"KASERNE" b!"kaserne", opt b!"HAFEN" b!"hafen", opt b!"WHERETO" b!"whereto",
   opt b!"OBERSTADT_2_UNTERSTADT" b!"oberstadt_2_unterstadt", opt b!"UNTERSTADT_2_OBERSTADT" b!"unterstadt_2_oberstadt",
   opt b!"UNTERSTADT_2_TEMPEL" b!"unterstadt_2_tempel", opt b!"UNTERSTADT_2_HAFEN" b!"unterstadt_2_hafen",
   opt b!"TEMPEL_2_UNTERSTADT" b!"tempel_2_unterstadt", opt b!"TEMPEL_2_MARKT" b!"tempel_2_markt",
   opt b!"TEMPEL_2_GALGEN" b!"tempel_2_galgen", opt b!"MARKT_2_TEMPEL" b!"markt_2_tempel",
   opt b!"MARKT_2_KASERNE" b!"markt_2_kaserne", opt b!"MARKT_2_GALGEN" b!"markt_2_galgen",
   opt b!"GALGEN_2_TEMPEL" b!"galgen_2_tempel", opt b!"GALGEN_2_MARKT" b!"galgen_2_markt",
   opt b!"GALGEN_2_KASERNE" b!"galgen_2_kaserne", opt b!"KASERNE_2_MARKT" b!"kaserne_2_markt",
   opt b!"KASERNE_2_GALGEN" b!"kaserne_2_galgen", opt b!"HAFEN_2_UNTERSTADT" b!"hafen_2_unterstadt", opt b!"DEAD" b!"dead",
   opt b!"AARGH_1" b!"aargh_1", opt b!"AARGH_2" b!"aargh_2", opt b!"AARGH_3" b!"aargh_3",
   opt b!"ADDON_WRONGARMOR" b!"addon_wrong_armor", opt b!"ADDON_WRONGARMOR_SLD" b!"addon_wrong_armor_sld",
   opt b!"ADDON_WRONGARMOR_MIL" b!"addon_wrong_armor_mil", opt b!"ADDON_WRONGARMOR_KDF" b!"addon_wrong_armor_kdf",
   opt b!"ADDON_NOARMOR_BDT" b!"addon_no_armor_bdt", opt b!"ADDON_DIEBANDIT" b!"addon_die_bandit",
   opt b!"ADDON_DIRTYPIRATE" b!"addon_dirty_pirate", opt b!"SC_HEYTURNAROUND" b!"sc_hey_turn_around",
   opt b!"SC_HEYTURNAROUND02" b!"sc_hey_turn_around_02", opt b!"SC_HEYTURNAROUND03" b!"sc_hey_turn_around_03",
   opt b!"SC_HEYTURNAROUND04" b!"sc_hey_turn_around_04", opt b!"SC_HEYWAITASECOND" b!"sc_hey_wait_asecond",
   opt b!"DOESNTWORK" b!"doesnt_mork", opt b!"PICKBROKE" b!"pick_broke", opt b!"NEEDKEY" b!"need_key",
   opt b!"NOMOREPICKS" b!"no_more_picks", opt b!"NOPICKLOCKTALENT" b!"no_pick_lock_talent",
   opt b!"NOSWEEPING" b!"no_sweeping", opt b!"PICKLOCKORKEYMISSING" b!"pick_lock_or_key_missing"]

def iSvmRegs3 : List Reg :=
  [opt b!"KEYMISSING" b!"key_missing", opt b!"PICKLOCKMISSING" b!"pick_lock_missing", opt b!"NEVEROPEN" b!"never_open",
   opt b!"MISSINGITEM" b!"missing_item", opt b!"DONTKNOW" b!"dont_know", opt b!"NOTHINGTOGET" b!"nothing_to_get",
   opt b!"NOTHINGTOGET02" b!"nothing_to_get_02", opt b!"NOTHINGTOGET03" b!"nothing_to_get_03",
   opt b!"HEALSHRINE" b!"heal_shrine", opt b!"HEALLASTSHRINE" b!"heal_last_shrine",
   opt b!"IRDORATHTHEREYOUARE" b!"irdorath_there_you_are", opt b!"SCOPENSIRDORATHBOOK" b!"sc_opens_irdorath_book",
   opt b!"SCOPENSLASTDOOR" b!"sc_opens_last_door", opt b!"TRADE_1" b!"trade_1", opt b!"TRADE_2" b!"trade_2",
   opt b!"TRADE_3" b!"trade_3", opt b!"VERSTEHE" b!"verstehe", opt b!"FOUNDTREASURE" b!"found_treasure",
   opt b!"CANTUNDERSTANDTHIS" b!"cant_understand_this", opt b!"CANTREADTHIS" b!"cant_read_this",
   opt b!"STONEPLATE_1" b!"stoneplate_1", opt b!"STONEPLATE_2" b!"stoneplate_2", opt b!"STONEPLATE_3" b!"stoneplate_3",
   opt b!"COUGH" b!"cough", opt b!"HUI" b!"hui", opt b!"ADDON_THISLITTLEBASTARD" b!"addon_this_little_bastard",
   opt b!"ADDON_OPENADANOSTEMPLE" b!"addon_open_adanos_temple",
   opt b!"ATTENTAT_ADDON_DESCRIPTION" b!"attentat_addon_description",
   opt b!"ATTENTAT_ADDON_DESCRIPTION2" b!"attentat_addon_description_2", opt b!"ATTENTAT_ADDON_PRO" b!"attentat_addon_pro",
   opt b!"ATTENTAT_ADDON_CONTRA" b!"attentat_addon_contra", opt b!"MINE_ADDON_DESCRIPTION" b!"mine_addon_description",
   opt b!"ADDON_SUMMONANCIENTGHOST" b!"addon_summon_ancient_ghost",
   opt b!"ADDON_ANCIENTGHOST_NOTNEAR" b!"addon_ancient_ghost_not_near",
   opt b!"ADDON_GOLD_DESCRIPTION" b!"addon_gold_description", opt b!"WATCHYOURAIM" b!"watch_your_aim",
   opt b!"watchyouraimangry" b!"watch_your_aim_angry", opt b!"letsforgetourlittlefight" b!"lets_forget_our_little_fight",
   opt b!"strange" b!"strange", opt b!"diemortalenemy" b!"die_mortal_enemy", opt b!"nowwait" b!"now_wait",
   opt b!"nowwaitintruder" b!"now_wait_intruder", opt b!"youstillnothaveenough" b!"you_still_not_have_enough",
   opt b!"youattackedmycharge" b!"you_attacked_my_charge",
   opt b!"iwillteachyourespectforforeignproperty" b!"iwill_teach_you_respect_for_foreign_property",
   opt b!"youkilledoneofus" b!"you_killed_one_of_us", opt b!"berzerk" b!"berzerk",
   opt b!"youllbesorryforthis" b!"youll_be_sorry_for_this", opt b!"yesyes" b!"yes_yes",
   opt b!"shitwhatamonster" b!"shit_what_amonster", opt b!"wewillmeetagain" b!"we_will_meet_again",
   opt b!"nevertrythatagain" b!"never_try_that_again", opt b!"itookyourore" b!"itook_your_ore",
   opt b!"shitnoore" b!"shit_no_ore", opt b!"youviolatedforbiddenterritory" b!"you_violated_forbidden_territory",
   opt b!"youwannafoolme" b!"you_wanna_fool_me", opt b!"whatdidyouinthere" b!"what_did_you_in_there",
   opt b!"intruderalert" b!"intruder_alert", opt b!"behindyou" b!"behind_you", opt b!"heyheyhey" b!"hey_hey_hey",
   opt b!"cheerfight" b!"cheer_fight", opt b!"cheerfriend" b!"cheer_friend", opt b!"ooh" b!"ooh",
   opt b!"yeahwelldone" b!"yeah_well_done", opt b!"hedefeatedhim" b!"he_defeatedhim",
   opt b!"hedeservedit" b!"he_deserv_edit", opt b!"hekilledhim" b!"he_killed_him",
   opt b!"itwasagoodfight" b!"it_was_agood_fight", opt b!"friendlygreetings" b!"friendly_greetings",
   opt b!"algreetings" b!"al_greetings", opt b!"magegreetings" b!"mage_greetings", opt b!"sectgreetings" b!"sect_greetings",
   opt b!"thereheis" b!"there_he_is", opt b!"nolearnovermax" b!"no_learn_over_max",
   opt b!"nolearnyoualreadyknow" b!"no_learn_you_already_know", opt b!"heyyou" b!"hey_you",
   opt b!"whatdoyouwant" b!"what_do_you_want", opt b!"isaidwhatdoyouwant" b!"isaid_what_do_you_want",
   opt b!"makeway" b!"make_way", opt b!"outofmyway" b!"out_of_my_way", opt b!"youdeaforwhat" b!"you_deaf_or_what",
   opt b!"lookaway" b!"look_away", opt b!"okaykeepit" b!"okay_keep_it", opt b!"whatsthat" b!"whats_that",
   opt b!"thatsmyweapon" b!"thats_my_weapon", opt b!"giveittome" b!"give_it_tome",
   opt b!"youcankeepthecrap" b!"you_can_keep_the_crap", opt b!"theykilledmyfriend" b!"they_killed_my_friend",
   opt b!"suckergotsome" b!"sucker_got_some", opt b!"suckerdefeatedebr" b!"sucker_defeated_ebr",
   opt b!"suckerdefeatedgur" b!"sucker_defeated_gur", opt b!"suckerdefeatedmage" b!"sucker_defeated_mage",
   opt b!"suckerdefeatednov_guard" b!"sucker_defeated_nov_guard",
   opt b!"suckerdefeatedvlk_guard" b!"sucker_defeated_vlk_guard", opt b!"youdefeatedmycomrade" b!"you_defeated_my_comrade",
   opt b!"youdefeatednov_guard" b!"you_defeated_nov_guard", opt b!"youdefeatedvlk_guard" b!"you_defeated_vlk_guard",
   opt b!"youstolefromme" b!"you_stole_from_me", opt b!"youstolefromus" b!"you_stole_from_us",
   opt b!"youstolefromebr" b!"you_stole_from_ebr"]

def iSvmRegs4 : List Reg :=
  [opt b!"youstolefromgur" b!"you_stole_from_gur", opt b!"stolefrommage" b!"stole_urom_mage",
   opt b!"youkilledmyfriend" b!"you_killedmyfriend", opt b!"youkilledebr" b!"you_killed_ebr",
   opt b!"youkilledgur" b!"you_killed_gur", opt b!"youkilledmage" b!"you_killed_mage",
   opt b!"youkilledocfolk" b!"you_killed_oc_folk", opt b!"youkilledncfolk" b!"you_killed_nc_folk",
   opt b!"youkilledpsifolk" b!"you_killed_psi_folk", opt b!"getthingsright" b!"get_things_right",
   opt b!"youdefeatedmewell" b!"you_defeated_me_well", opt b!"om" b!"om"]

/-- `struct ISvm` (`include/zenkit/addon/daedalus.hh:395-710`, `src/addon/daedalus.cc:342-657`). -/
def iSvm : ScriptClass where
  symbol := b!"C_SVM"
  fields := iSvmFields1 ++ iSvmFields2 ++ iSvmFields3 ++ iSvmFields4
  regs := iSvmRegs1 ++ iSvmRegs2 ++ iSvmRegs3 ++ iSvmRegs4

/-- `struct IMenu` (`include/zenkit/addon/daedalus.hh:731-749`, `src/addon/daedalus.cc:661-676`). -/
def iMenu : ScriptClass where
  symbol := b!"C_MENU"
  fields :=
    [str b!"back_pic", str b!"back_world", int b!"pos_x", int b!"pos_y", int b!"dim_x", int b!"dim_y", int b!"alpha",
     str b!"music_theme", int b!"event_timer_msec", str b!"items" 150, int b!"flags", int b!"default_outgame",
     int b!"default_ingame"]
  regs :=
    [reg b!"BACKPIC" b!"back_pic", reg b!"BACKWORLD" b!"back_world", reg b!"POSX" b!"pos_x", reg b!"POSY" b!"pos_y",
     reg b!"DIMX" b!"dim_x", reg b!"DIMY" b!"dim_y", reg b!"ALPHA" b!"alpha", reg b!"MUSICTHEME" b!"music_theme",
     reg b!"EVENTTIMERMSEC" b!"event_timer_msec", reg b!"ITEMS" b!"items", reg b!"FLAGS" b!"flags",
     reg b!"DEFAULTOUTGAME" b!"default_outgame", reg b!"DEFAULTINGAME" b!"default_ingame"]

/-- `struct IMenuItem` (`include/zenkit/addon/daedalus.hh:848-884`, `src/addon/daedalus.cc:678-716`). -/
def iMenuItem : ScriptClass where
  symbol := b!"C_MENU_ITEM"
  fields :=
    [str b!"fontname", str b!"text" 10, str b!"backpic", str b!"alphamode", int b!"alpha", int b!"type",
     int b!"on_sel_action" 5, str b!"on_sel_action_s" 5, str b!"on_chg_set_option", str b!"on_chg_set_option_section",
     int b!"on_event_action" 10, int b!"pos_x", int b!"pos_y", int b!"dim_x", int b!"dim_y", flt b!"size_start_scale",
     int b!"flags", flt b!"open_delay_time", flt b!"open_duration", flt b!"user_float" 4, str b!"user_string" 4,
     int b!"frame_posx", int b!"frame_posy", int b!"frame_sizex", int b!"frame_sizey", str b!"hide_if_option_section_set",
     str b!"hide_if_option_set", int b!"hide_on_value"]
  regs :=
    [reg b!"FONTNAME" b!"fontname", reg b!"TEXT" b!"text", reg b!"BACKPIC" b!"backpic", reg b!"ALPHAMODE" b!"alphamode",
     reg b!"ALPHA" b!"alpha", reg b!"TYPE" b!"type", reg b!"ONSELACTION" b!"on_sel_action",
     reg b!"ONSELACTION_S" b!"on_sel_action_s", reg b!"ONCHGSETOPTION" b!"on_chg_set_option",
     reg b!"ONCHGSETOPTIONSECTION" b!"on_chg_set_option_section", reg b!"ONEVENTACTION" b!"on_event_action",
     reg b!"POSX" b!"pos_x", reg b!"POSY" b!"pos_y", reg b!"DIMX" b!"dim_x", reg b!"DIMY" b!"dim_y",
     reg b!"SIZESTARTSCALE" b!"size_start_scale", reg b!"FLAGS" b!"flags", reg b!"OPENDELAYTIME" b!"open_delay_time",
     reg b!"OPENDURATION" b!"open_duration", reg b!"USERFLOAT" b!"user_float", reg b!"USERSTRING" b!"user_string",
     reg b!"FRAMESIZEX" b!"frame_sizex", reg b!"FRAMESIZEY" b!"frame_sizey", opt b!"FRAMEPOSX" b!"frame_posx",
     when_ b!"FRAMEPOSX" b!"FRAMEPOSY" b!"frame_posy", opt b!"HIDEIFOPTIONSECTIONSET" b!"hide_if_option_section_set",
     when_ b!"HIDEIFOPTIONSECTIONSET" b!"HIDEIFOPTIONSET" b!"hide_if_option_set",
     when_ b!"HIDEIFOPTIONSECTIONSET" b!"HIDEONVALUE" b!"hide_on_value"]

/-- `struct ICamera` (`include/zenkit/addon/daedalus.hh:886-912`, `src/addon/daedalus.cc:718-743`). -/
def iCamera : ScriptClass where
  symbol := b!"CCAMSYS"
  fields :=
    [flt b!"best_range", flt b!"min_range", flt b!"max_range", flt b!"best_elevation", flt b!"min_elevation",
     flt b!"max_elevation", flt b!"best_azimuth", flt b!"min_azimuth", flt b!"max_azimuth", flt b!"best_rot_z",
     flt b!"min_rot_z", flt b!"max_rot_z", flt b!"rot_offset_x", flt b!"rot_offset_y", flt b!"rot_offset_z",
     flt b!"target_offset_x", flt b!"target_offset_y", flt b!"target_offset_z", flt b!"velo_trans", flt b!"velo_rot",
     int b!"translate", int b!"rotate", int b!"collision"]
  regs :=
    [reg b!"BESTRANGE" b!"best_range", reg b!"MINRANGE" b!"min_range", reg b!"MAXRANGE" b!"max_range",
     reg b!"BESTELEVATION" b!"best_elevation", reg b!"MINELEVATION" b!"min_elevation",
     reg b!"MAXELEVATION" b!"max_elevation", reg b!"BESTAZIMUTH" b!"best_azimuth", reg b!"MINAZIMUTH" b!"min_azimuth",
     reg b!"MAXAZIMUTH" b!"max_azimuth", reg b!"BESTROTZ" b!"best_rot_z", reg b!"MINROTZ" b!"min_rot_z",
     reg b!"MAXROTZ" b!"max_rot_z", reg b!"ROTOFFSETX" b!"rot_offset_x", reg b!"ROTOFFSETY" b!"rot_offset_y",
     reg b!"ROTOFFSETZ" b!"rot_offset_z", reg b!"TARGETOFFSETX" b!"target_offset_x",
     reg b!"TARGETOFFSETY" b!"target_offset_y", reg b!"TARGETOFFSETZ" b!"target_offset_z", reg b!"VELOTRANS" b!"velo_trans",
     reg b!"VELOROT" b!"velo_rot", reg b!"TRANSLATE" b!"translate", reg b!"ROTATE" b!"rotate",
     reg b!"COLLISION" b!"collision"]

/-- `struct IMusicSystem` (`include/zenkit/addon/daedalus.hh:946-955`, `src/addon/daedalus.cc:745-753`). -/
def iMusicSystem : ScriptClass where
  symbol := b!"C_MUSICSYS_CFG"
  fields :=
    [flt b!"volume", int b!"bit_resolution", int b!"global_reverb_enabled", int b!"sample_rate", int b!"num_channels",
     int b!"reverb_buffer_size"]
  regs :=
    [reg b!"VOLUME" b!"volume", reg b!"BITRESOLUTION" b!"bit_resolution",
     reg b!"GLOBALREVERBENABLED" b!"global_reverb_enabled", reg b!"SAMPLERATE" b!"sample_rate",
     reg b!"NUMCHANNELS" b!"num_channels", reg b!"REVERBBUFFERSIZE" b!"reverb_buffer_size"]

/-- `struct IMusicTheme` (`include/zenkit/addon/daedalus.hh:957-967`, `src/addon/daedalus.cc:755-764`). -/
def iMusicTheme : ScriptClass where
  symbol := b!"C_MUSICTHEME"
  fields :=
    [str b!"file", flt b!"vol", int b!"loop", flt b!"reverbmix", flt b!"reverbtime", int b!"transtype", int b!"transsubtype"]
  regs :=
    [reg b!"FILE" b!"file", reg b!"VOL" b!"vol", reg b!"LOOP" b!"loop", reg b!"REVERBMIX" b!"reverbmix",
     reg b!"REVERBTIME" b!"reverbtime", reg b!"TRANSTYPE" b!"transtype", reg b!"TRANSSUBTYPE" b!"transsubtype"]

/-- `struct IMusicJingle` (`include/zenkit/addon/daedalus.hh:969-976`, `src/addon/daedalus.cc:766-772`). -/
def iMusicJingle : ScriptClass where
  symbol := b!"C_MUSICJINGLE"
  fields :=
    [str b!"name", int b!"loop", flt b!"vol", int b!"transsubtype"]
  regs :=
    [reg b!"NAME" b!"name", reg b!"LOOP" b!"loop", reg b!"VOL" b!"vol", reg b!"TRANSSUBTYPE" b!"transsubtype"]

/-- `struct IParticleEffect` (`include/zenkit/addon/daedalus.hh:978-1038`, `src/addon/daedalus.cc:774-837`). -/
def iParticleEffect : ScriptClass where
  symbol := b!"C_PARTICLEFX"
  fields :=
    [flt b!"pps_value", str b!"pps_scale_keys_s", int b!"pps_is_looping", int b!"pps_is_smooth", flt b!"pps_fps",
     str b!"pps_create_em_s", flt b!"pps_create_em_delay", str b!"shp_type_s", str b!"shp_for_s", str b!"shp_offset_vec_s",
     str b!"shp_distrib_type_s", flt b!"shp_distrib_walk_speed", int b!"shp_is_volume", str b!"shp_dim_s",
     str b!"shp_mesh_s", int b!"shp_mesh_render_b", str b!"shp_scale_keys_s", int b!"shp_scale_is_looping",
     int b!"shp_scale_is_smooth", flt b!"shp_scale_fps", str b!"dir_mode_s", str b!"dir_for_s",
     str b!"dir_mode_target_for_s", str b!"dir_mode_target_pos_s", flt b!"dir_angle_head", flt b!"dir_angle_head_var",
     flt b!"dir_angle_elev", flt b!"dir_angle_elev_var", flt b!"vel_avg", flt b!"vel_var", flt b!"lsp_part_avg",
     flt b!"lsp_part_var", str b!"fly_gravity_s", int b!"fly_colldet_b", str b!"vis_name_s", str b!"vis_orientation_s",
     int b!"vis_tex_is_quadpoly", flt b!"vis_tex_ani_fps", int b!"vis_tex_ani_is_looping", str b!"vis_tex_color_start_s",
     str b!"vis_tex_color_end_s", str b!"vis_size_start_s", flt b!"vis_size_end_scale", str b!"vis_alpha_func_s",
     flt b!"vis_alpha_start", flt b!"vis_alpha_end", flt b!"trl_fade_speed", str b!"trl_texture_s", flt b!"trl_width",
     flt b!"mrk_fades_peed", str b!"mrkt_exture_s", flt b!"mrk_size", str b!"flock_mode", flt b!"flock_strength",
     int b!"use_emitters_for", str b!"time_start_end_s", int b!"m_bis_ambient_pfx"]
  regs :=
    [reg b!"PPSVALUE" b!"pps_value", reg b!"PPSSCALEKEYS_S" b!"pps_scale_keys_s", reg b!"PPSISLOOPING" b!"pps_is_looping",
     reg b!"PPSISSMOOTH" b!"pps_is_smooth", reg b!"PPSFPS" b!"pps_fps", reg b!"PPSCREATEEM_S" b!"pps_create_em_s",
     reg b!"PPSCREATEEMDELAY" b!"pps_create_em_delay", reg b!"SHPTYPE_S" b!"shp_type_s", reg b!"SHPFOR_S" b!"shp_for_s",
     reg b!"SHPOFFSETVEC_S" b!"shp_offset_vec_s", reg b!"SHPDISTRIBTYPE_S" b!"shp_distrib_type_s",
     reg b!"SHPDISTRIBWALKSPEED" b!"shp_distrib_walk_speed", reg b!"SHPISVOLUME" b!"shp_is_volume",
     reg b!"SHPDIM_S" b!"shp_dim_s", reg b!"SHPMESH_S" b!"shp_mesh_s", reg b!"SHPMESHRENDER_B" b!"shp_mesh_render_b",
     reg b!"SHPSCALEKEYS_S" b!"shp_scale_keys_s", reg b!"SHPSCALEISLOOPING" b!"shp_scale_is_looping",
     reg b!"SHPSCALEISSMOOTH" b!"shp_scale_is_smooth", reg b!"SHPSCALEFPS" b!"shp_scale_fps",
     reg b!"DIRMODE_S" b!"dir_mode_s", reg b!"DIRFOR_S" b!"dir_for_s", reg b!"DIRMODETARGETFOR_S" b!"dir_mode_target_for_s",
     reg b!"DIRMODETARGETPOS_S" b!"dir_mode_target_pos_s", reg b!"DIRANGLEHEAD" b!"dir_angle_head",
     reg b!"DIRANGLEHEADVAR" b!"dir_angle_head_var", reg b!"DIRANGLEELEV" b!"dir_angle_elev",
     reg b!"DIRANGLEELEVVAR" b!"dir_angle_elev_var", reg b!"VELAVG" b!"vel_avg", reg b!"VELVAR" b!"vel_var",
     reg b!"LSPPARTAVG" b!"lsp_part_avg", reg b!"LSPPARTVAR" b!"lsp_part_var", reg b!"FLYGRAVITY_S" b!"fly_gravity_s",
     reg b!"FLYCOLLDET_B" b!"fly_colldet_b", reg b!"VISNAME_S" b!"vis_name_s",
     reg b!"VISORIENTATION_S" b!"vis_orientation_s", reg b!"VISTEXISQUADPOLY" b!"vis_tex_is_quadpoly",
     reg b!"VISTEXANIFPS" b!"vis_tex_ani_fps", reg b!"VISTEXANIISLOOPING" b!"vis_tex_ani_is_looping",
     reg b!"VISTEXCOLORSTART_S" b!"vis_tex_color_start_s", reg b!"VISTEXCOLOREND_S" b!"vis_tex_color_end_s",
     reg b!"VISSIZESTART_S" b!"vis_size_start_s", reg b!"VISSIZEENDSCALE" b!"vis_size_end_scale",
     reg b!"VISALPHAFUNC_S" b!"vis_alpha_func_s", reg b!"VISALPHASTART" b!"vis_alpha_start",
     reg b!"VISALPHAEND" b!"vis_alpha_end", reg b!"TRLFADESPEED" b!"trl_fade_speed", reg b!"TRLTEXTURE_S" b!"trl_texture_s",
     reg b!"TRLWIDTH" b!"trl_width", reg b!"MRKFADESPEED" b!"mrk_fades_peed", reg b!"MRKTEXTURE_S" b!"mrkt_exture_s",
     reg b!"MRKSIZE" b!"mrk_size", opt b!"FLOCKMODE" b!"flock_mode",
     when_ b!"FLOCKMODE" b!"FLOCKSTRENGTH" b!"flock_strength", when_ b!"FLOCKMODE" b!"USEEMITTERSFOR" b!"use_emitters_for",
     when_ b!"FLOCKMODE" b!"TIMESTARTEND_S" b!"time_start_end_s",
     when_ b!"FLOCKMODE" b!"M_BISAMBIENTPFX" b!"m_bis_ambient_pfx"]

/-- `struct IEffectBase` (`include/zenkit/addon/daedalus.hh:1040-1091`, `src/addon/daedalus.cc:839-890`). -/
def iEffectBase : ScriptClass where
  symbol := b!"CFX_BASE"
  fields :=
    [str b!"vis_name_s", str b!"vis_size_s", flt b!"vis_alpha", str b!"vis_alpha_blend_func_s", flt b!"vis_tex_ani_fps",
     int b!"vis_tex_ani_is_looping", str b!"em_trj_mode_s", str b!"em_trj_origin_node", str b!"em_trj_target_node",
     flt b!"em_trj_target_range", flt b!"em_trj_target_azi", flt b!"em_trj_target_elev", int b!"em_trj_num_keys",
     int b!"em_trj_num_keys_var", flt b!"em_trj_angle_elev_var", flt b!"em_trj_angle_head_var", flt b!"em_trj_key_dist_var",
     str b!"em_trj_loop_mode_s", str b!"em_trj_ease_func_s", flt b!"em_trj_ease_vel", flt b!"em_trj_dyn_update_delay",
     int b!"em_trj_dyn_update_target_only", str b!"em_fx_create_s", str b!"em_fx_invest_origin_s",
     str b!"em_fx_invest_target_s", flt b!"em_fx_trigger_delay", int b!"em_fx_create_down_trj", str b!"em_action_coll_dyn_s",
     str b!"em_action_coll_stat_s", str b!"em_fx_coll_stat_s", str b!"em_fx_coll_dyn_s", str b!"em_fx_coll_stat_align_s",
     str b!"em_fx_coll_dyn_align_s", flt b!"em_fx_lifespan", int b!"em_check_collision", int b!"em_adjust_shp_to_origin",
     flt b!"em_invest_next_key_duration", flt b!"em_fly_gravity", str b!"em_self_rot_vel_s", str b!"user_string" 5,
     str b!"light_preset_name", str b!"sfx_id", int b!"sfx_is_ambient", int b!"send_assess_magic", flt b!"secs_per_damage",
     str b!"em_fx_coll_dyn_perc_s"]
  regs :=
    [reg b!"VISNAME_S" b!"vis_name_s", reg b!"VISSIZE_S" b!"vis_size_s", reg b!"VISALPHA" b!"vis_alpha",
     reg b!"VISALPHABLENDFUNC_S" b!"vis_alpha_blend_func_s", reg b!"VISTEXANIFPS" b!"vis_tex_ani_fps",
     reg b!"VISTEXANIISLOOPING" b!"vis_tex_ani_is_looping", reg b!"EMTRJMODE_S" b!"em_trj_mode_s",
     reg b!"EMTRJORIGINNODE" b!"em_trj_origin_node", reg b!"EMTRJTARGETNODE" b!"em_trj_target_node",
     reg b!"EMTRJTARGETRANGE" b!"em_trj_target_range", reg b!"EMTRJTARGETAZI" b!"em_trj_target_azi",
     reg b!"EMTRJTARGETELEV" b!"em_trj_target_elev", reg b!"EMTRJNUMKEYS" b!"em_trj_num_keys",
     reg b!"EMTRJNUMKEYSVAR" b!"em_trj_num_keys_var", reg b!"EMTRJANGLEELEVVAR" b!"em_trj_angle_elev_var",
     reg b!"EMTRJANGLEHEADVAR" b!"em_trj_angle_head_var", reg b!"EMTRJKEYDISTVAR" b!"em_trj_key_dist_var",
     reg b!"EMTRJLOOPMODE_S" b!"em_trj_loop_mode_s", reg b!"EMTRJEASEFUNC_S" b!"em_trj_ease_func_s",
     reg b!"EMTRJEASEVEL" b!"em_trj_ease_vel", reg b!"EMTRJDYNUPDATEDELAY" b!"em_trj_dyn_update_delay",
     reg b!"EMTRJDYNUPDATETARGETONLY" b!"em_trj_dyn_update_target_only", reg b!"EMFXCREATE_S" b!"em_fx_create_s",
     reg b!"EMFXINVESTORIGIN_S" b!"em_fx_invest_origin_s", reg b!"EMFXINVESTTARGET_S" b!"em_fx_invest_target_s",
     reg b!"EMFXTRIGGERDELAY" b!"em_fx_trigger_delay", reg b!"EMFXCREATEDOWNTRJ" b!"em_fx_create_down_trj",
     reg b!"EMACTIONCOLLDYN_S" b!"em_action_coll_dyn_s", reg b!"EMACTIONCOLLSTAT_S" b!"em_action_coll_stat_s",
     reg b!"EMFXCOLLSTAT_S" b!"em_fx_coll_stat_s", reg b!"EMFXCOLLDYN_S" b!"em_fx_coll_dyn_s",
     reg b!"EMFXCOLLSTATALIGN_S" b!"em_fx_coll_stat_align_s", reg b!"EMFXCOLLDYNALIGN_S" b!"em_fx_coll_dyn_align_s",
     reg b!"EMFXLIFESPAN" b!"em_fx_lifespan", reg b!"EMCHECKCOLLISION" b!"em_check_collision",
     reg b!"EMADJUSTSHPTOORIGIN" b!"em_adjust_shp_to_origin",
     reg b!"EMINVESTNEXTKEYDURATION" b!"em_invest_next_key_duration", reg b!"EMFLYGRAVITY" b!"em_fly_gravity",
     reg b!"EMSELFROTVEL_S" b!"em_self_rot_vel_s", reg b!"USERSTRING" b!"user_string",
     reg b!"LIGHTPRESETNAME" b!"light_preset_name", reg b!"SFXID" b!"sfx_id", reg b!"SFXISAMBIENT" b!"sfx_is_ambient",
     reg b!"SENDASSESSMAGIC" b!"send_assess_magic", reg b!"SECSPERDAMAGE" b!"secs_per_damage",
     opt b!"EMFXCOLLDYNPERC_S" b!"em_fx_coll_dyn_perc_s"]

/-- `struct IParticleEffectEmitKey` (`include/zenkit/addon/daedalus.hh:1093-1128`, `src/addon/daedalus.cc:111-146`). -/
def iParticleEffectEmitKey : ScriptClass where
  symbol := b!"C_PARTICLEFXEMITKEY"
  fields :=
    [str b!"vis_name_s", flt b!"vis_size_scale", flt b!"scale_duration", flt b!"pfx_pps_value",
     int b!"pfx_pps_is_smooth_chg", int b!"pfx_pps_is_looping_chg", flt b!"pfx_sc_time", str b!"pfx_fly_gravity_s",
     str b!"pfx_shp_dim_s", int b!"pfx_shp_is_volume_chg", flt b!"pfx_shp_scale_fps", flt b!"pfx_shp_distrib_walks_peed",
     str b!"pfx_shp_offset_vec_s", str b!"pfx_shp_distrib_type_s", str b!"pfx_dir_mode_s", str b!"pfx_dir_for_s",
     str b!"pfx_dir_mode_target_for_s", str b!"pfx_dir_mode_target_pos_s", flt b!"pfx_vel_avg", flt b!"pfx_lsp_part_avg",
     flt b!"pfx_vis_alpha_start", str b!"light_preset_name", flt b!"light_range", str b!"sfx_id", int b!"sfx_is_ambient",
     str b!"em_create_fx_id", flt b!"em_fly_gravity", str b!"em_self_rot_vel_s", str b!"em_trj_mode_s",
     flt b!"em_trj_ease_vel", int b!"em_check_collision", flt b!"em_fx_lifespan"]
  regs :=
    [reg b!"VISNAME_S" b!"vis_name_s", reg b!"VISSIZESCALE" b!"vis_size_scale", reg b!"SCALEDURATION" b!"scale_duration",
     reg b!"PFX_PPSVALUE" b!"pfx_pps_value", reg b!"PFX_PPSISSMOOTHCHG" b!"pfx_pps_is_smooth_chg",
     reg b!"PFX_PPSISLOOPINGCHG" b!"pfx_pps_is_looping_chg", reg b!"PFX_SCTIME" b!"pfx_sc_time",
     reg b!"PFX_FLYGRAVITY_S" b!"pfx_fly_gravity_s", reg b!"PFX_SHPDIM_S" b!"pfx_shp_dim_s",
     reg b!"PFX_SHPISVOLUMECHG" b!"pfx_shp_is_volume_chg", reg b!"PFX_SHPSCALEFPS" b!"pfx_shp_scale_fps",
     reg b!"PFX_SHPDISTRIBWALKSPEED" b!"pfx_shp_distrib_walks_peed", reg b!"PFX_SHPOFFSETVEC_S" b!"pfx_shp_offset_vec_s",
     reg b!"PFX_SHPDISTRIBTYPE_S" b!"pfx_shp_distrib_type_s", reg b!"PFX_DIRMODE_S" b!"pfx_dir_mode_s",
     reg b!"PFX_DIRFOR_S" b!"pfx_dir_for_s", reg b!"PFX_DIRMODETARGETFOR_S" b!"pfx_dir_mode_target_for_s",
     reg b!"PFX_DIRMODETARGETPOS_S" b!"pfx_dir_mode_target_pos_s", reg b!"PFX_VELAVG" b!"pfx_vel_avg",
     reg b!"PFX_LSPPARTAVG" b!"pfx_lsp_part_avg", reg b!"PFX_VISALPHASTART" b!"pfx_vis_alpha_start",
     reg b!"LIGHTPRESETNAME" b!"light_preset_name", reg b!"LIGHTRANGE" b!"light_range", reg b!"SFXID" b!"sfx_id",
     reg b!"SFXISAMBIENT" b!"sfx_is_ambient", reg b!"EMCREATEFXID" b!"em_create_fx_id",
     reg b!"EMFLYGRAVITY" b!"em_fly_gravity", reg b!"EMSELFROTVEL_S" b!"em_self_rot_vel_s",
     reg b!"EMTRJMODE_S" b!"em_trj_mode_s", reg b!"EMTRJEASEVEL" b!"em_trj_ease_vel",
     reg b!"EMCHECKCOLLISION" b!"em_check_collision", reg b!"EMFXLIFESPAN" b!"em_fx_lifespan"]

/-- `struct IFightAi` (`include/zenkit/addon/daedalus.hh:1170-1176`, `src/addon/daedalus.cc:83-86`). -/
def iFightAi : ScriptClass where
  symbol := b!"C_FIGHTAI"
  fields :=
    [int b!"move" 6]
  regs :=
    [reg b!"MOVE" b!"move"]

/-- `struct ISoundEffect` (`include/zenkit/addon/daedalus.hh:1178-1190`, `src/addon/daedalus.cc:88-99`). -/
def iSoundEffect : ScriptClass where
  symbol := b!"C_SFX"
  fields :=
    [str b!"file", int b!"pitch_off", int b!"pitch_var", int b!"vol", int b!"loop", int b!"loop_start_offset",
     int b!"loop_end_offset", flt b!"reverb_level", str b!"pfx_name"]
  regs :=
    [reg b!"FILE" b!"file", reg b!"PITCHOFF" b!"pitch_off", reg b!"PITCHVAR" b!"pitch_var", reg b!"VOL" b!"vol",
     reg b!"LOOP" b!"loop", reg b!"LOOPSTARTOFFSET" b!"loop_start_offset", reg b!"LOOPENDOFFSET" b!"loop_end_offset",
     reg b!"REVERBLEVEL" b!"reverb_level", reg b!"PFXNAME" b!"pfx_name"]

/-- `struct ISoundSystem` (`include/zenkit/addon/daedalus.hh:1192-1201`, `src/addon/daedalus.cc:101-109`). -/
def iSoundSystem : ScriptClass where
  symbol := b!"C_SNDSYS_CFG"
  fields :=
    [flt b!"volume", int b!"bit_resolution", int b!"sample_rate", int b!"use_stereo", int b!"num_sfx_channels",
     str b!"used_3d_provider_name"]
  regs :=
    [reg b!"VOLUME" b!"volume", reg b!"BITRESOLUTION" b!"bit_resolution", reg b!"SAMPLERATE" b!"sample_rate",
     reg b!"USESTEREO" b!"use_stereo", reg b!"NUMSFXCHANNELS" b!"num_sfx_channels",
     reg b!"USED3DPROVIDERNAME" b!"used_3d_provider_name"]

/-- The classes in the order of `register_all_script_classes` (`src/addon/daedalus.cc:15-36`). -/
def scriptClasses : List ScriptClass :=
  [iGuildValues, iNpc, iMission, iItem, iFocus, iInfo, iItemReact, iSpell, iSvm, iMenu, iMenuItem, iCamera, iMusicSystem,
   iMusicTheme, iMusicJingle, iParticleEffect, iEffectBase, iParticleEffectEmitKey, iFightAi, iSoundEffect, iSoundSystem]

/-! ## Registering -/

/-- The full name of a member. -/
def ScriptClass.member (c : ScriptClass) (name : Bytes) : Bytes := c.symbol ++ b!"." ++ name

/-- The field a call refers to: the `i`-th class has the type `i`; the compiler decides where the fields live (`place`). -/
def ScriptClass.field (c : ScriptClass) (place : Nat → Nat → Nat) (i : Nat) (name : Bytes) : Option Field :=
  match c.fields.findIdx? (fun d => d.name == name) with
  | none => none
  | some k => (c.fields[k]?).map fun d => ⟨i, d.type, d.elems, place i k⟩

/-- Whether there is a symbol. -/
def present (syms : List Sym) (name : Bytes) : Bool := (findByName syms name).isSome

/-- The calls of a `register_`; an exception ends it. Fields a class does not have do not compile. -/
def registerRegs (place : Nat → Nat → Nat) (i : Nat) (c : ScriptClass) : List Reg → List Sym → Except Fail Unit × List Sym
  | [], syms => (.ok (), syms)
  | r :: rest, syms =>
    match c.field place i r.field with
    | none => (.error .ub, syms)
    | some f =>
      if r.guard.all (fun g => present syms (c.member g)) then
        match registerMember syms (c.member r.member) f with
        | (.ok (), syms) => registerRegs place i c rest syms
        | (.error e, syms) => (.error e, syms)
      else registerRegs place i c rest syms

/-- `register_all_script_classes` (`src/addon/daedalus.cc:7-37`) for the classes from the `i`-th on. -/
def registerFrom (place : Nat → Nat → Nat) : Nat → List ScriptClass → List Sym → Except Fail Unit × List Sym
  | _, [], syms => (.ok (), syms)
  | i, c :: rest, syms =>
    if present syms c.symbol then
      match registerRegs place i c c.regs syms with
      | (.ok (), syms) => registerFrom place (i + 1) rest syms
      | (.error e, syms) => (.error e, syms)
    else registerFrom place (i + 1) rest syms

/-- `register_all_script_classes` (`src/addon/daedalus.cc:7-37`). -/
def registerAll (place : Nat → Nat → Nat) (syms : List Sym) : Except Fail Unit × List Sym :=
  registerFrom place 0 scriptClasses syms

end Verif.ScriptClasses
