import Verif.Model.ConfigDict
import Verif.Props.Config

/-!
# C116: the configuration as a dictionary
-/

namespace Flix

/-! ## Specification -/

/-- Every setting has a value of its declared type; a section that was no section in the file is none. -/
structure ConfigState.Sound (c : ConfigState) : Prop where
  name : HasType .str c.name
  noLogging : ∀ v, c.logging = .raw v → ¬ v.IsSec
  noModeling : ∀ v, c.modeling = .raw v → ¬ v.IsSec
  logging : ∀ l, c.logging = .obj l → HasType .level l.level ∧ HasType .str l.file ∧ HasType .bool l.rich
  modeling : ∀ m, c.modeling = .obj m → HasType .int m.big ∧ HasType .float m.epsilon ∧ HasType .int m.bigBinaryBound

/-- The path and the type of a field. -/
def CfgField.path : CfgField → List String
  | .level => ["logging", "level"]
  | .file => ["logging", "file"]
  | .rich => ["logging", "rich"]
  | .big => ["modeling", "BIG"]
  | .epsilon => ["modeling", "EPSILON"]
  | .bigBinaryBound => ["modeling", "BIG_BINARY_BOUND"]

/-- The declared type of a field. -/
def CfgField.type : CfgField → CTy
  | .level => .level
  | .file => .str
  | .rich => .bool
  | .big => .int
  | .epsilon => .float
  | .bigBinaryBound => .int

/-! ## Lemmas -/

theorem storedOf_ok {α : Type} {f : List (String × CVal) → Except Err α} {v : CVal} {a : Stored α} (h : storedOf f v = .ok a) :
    (∃ d x, v = .sec d ∧ f d = .ok x ∧ a = .obj x) ∨ (¬ v.IsSec ∧ a = .raw v) := by
  cases v with
  | sec d =>
    obtain ⟨x, hx, e⟩ := fmap_ok.1 h
    exact .inl ⟨d, x, rfl, hx, e.symm⟩
  | _ => cases h; exact .inr ⟨fun ⟨_, hk⟩ => (by cases hk), rfl⟩

theorem schemaOf_sound {file : CVal} {c : ConfigState} (h : schemaOf file = .ok c) : c.Sound := by
  cases file with
  | sec d =>
    unfold schemaOf at h
    obtain ⟨a, ha, h⟩ := bind_ok.1 h
    obtain ⟨b, hb, h⟩ := bind_ok.1 h
    obtain ⟨x, hx, h⟩ := bind_ok.1 h
    cases h
    obtain ⟨hy, rfl⟩ := validated_ok.1 hx
    refine ⟨isStr_iff.1 hy, ?_, ?_, ?_, ?_⟩
    · rintro v rfl
      rcases storedOf_ok ha with ⟨_, _, _, _, e⟩ | ⟨hv, e⟩ <;> cases e
      exact hv
    · rintro v rfl
      rcases storedOf_ok hb with ⟨_, _, _, _, e⟩ | ⟨hv, e⟩ <;> cases e
      exact hv
    · rintro l rfl
      rcases storedOf_ok ha with ⟨_, _, _, hl, e⟩ | ⟨hv, e⟩ <;> cases e
      exact (loggingOf_ok hl).2
    · rintro l rfl
      rcases storedOf_ok hb with ⟨_, _, _, hl, e⟩ | ⟨hv, e⟩ <;> cases e
      exact (modelingOf_ok hl).2
  | _ => cases h

theorem storedOf_raw {α : Type} {f : List (String × CVal) → Except Err α} {v : CVal} (h : ¬ v.IsSec) : storedOf f v = .ok (.raw v) := by
  cases v <;> first | rfl | exact absurd ⟨_, rfl⟩ h

/-- The dictionary of a sound configuration is a file with this configuration. -/
theorem schemaOf_toDict {c : ConfigState} (h : c.Sound) : schemaOf c.toDict = .ok c := by
  obtain ⟨cn, cl, cm⟩ := c
  have a : storedOf loggingOf (cl.dict LoggingCfg.dict) = .ok cl := by
    cases cl with
    | raw v => exact storedOf_raw (h.noLogging v rfl)
    | obj l =>
      obtain ⟨h1, h2, h3⟩ := h.logging l rfl
      have e1 := validated_ok.2 ⟨isLevel_iff.2 h1, rfl⟩
      have e2 := validated_ok.2 ⟨isStr_iff.2 h2, rfl⟩
      have e3 := validated_ok.2 ⟨isBool_iff.2 h3, rfl⟩
      simp [Stored.dict, LoggingCfg.dict, storedOf, loggingOf, fieldOf, pyLookup, e1, e2, e3, bind, Except.bind, Functor.map, Except.map, pure, Except.pure]
  have b : storedOf modelingOf (cm.dict ModelingCfg.dict) = .ok cm := by
    cases cm with
    | raw v => exact storedOf_raw (h.noModeling v rfl)
    | obj m =>
      obtain ⟨h1, h2, h3⟩ := h.modeling m rfl
      have e1 := validated_ok.2 ⟨isInt_iff.2 h1, rfl⟩
      have e2 := validated_ok.2 ⟨isFloat_iff.2 h2, rfl⟩
      have e3 := validated_ok.2 ⟨isInt_iff.2 h3, rfl⟩
      simp [Stored.dict, ModelingCfg.dict, storedOf, modelingOf, fieldOf, pyLookup, e1, e2, e3, bind, Except.bind, Functor.map, Except.map, pure,
        Except.pure]
  have e := validated_ok.2 ⟨isStr_iff.2 h.name, rfl⟩
  simp only at e
  simp [ConfigState.toDict, schemaOf, fieldOf, pyLookup, a, b, e, bind, Except.bind, pure, Except.pure]

theorem loadConfig_kept (s : ConfigState) (file : CVal) : (loadConfig s file).1 = s ∨ (loadConfig s file).1.Sound := by
  unfold loadConfig
  cases h : schemaOf file with
  | error e => exact .inl rfl
  | ok c =>
    refine .inr ?_
    have := schemaOf_sound h
    cases hl : levelOf c.logging <;> simpa [hl] using this

theorem map_validated {α : Type} {p : CVal → Bool} {v : CVal} {g : CVal → α} {a : α} : (validated p v).map g = .ok a ↔ p v = true ∧ a = g v := by
  unfold validated
  by_cases h : p v = true
  · simp [h, Except.map, eq_comm]
  · simp [h, Except.map]

theorem assign_sound {c c' : ConfigState} (hc : c.Sound) {f : CfgField} {v : CVal} (h : c.assign f v = .ok c') : c'.Sound := by
  obtain ⟨cn, cl, cm⟩ := c
  cases cl with
  | raw w =>
    cases cm with
    | raw u => cases f <;> cases h
    | obj m =>
      obtain ⟨m1, m2, m3⟩ := hc.modeling m rfl
      cases f <;> simp only [ConfigState.assign, map_validated, reduceCtorEq] at h
      all_goals
        obtain ⟨hp, rfl⟩ := h
        refine ⟨hc.name, hc.noLogging, by simp, hc.logging, ?_⟩
        rintro _ ⟨⟩
      · exact ⟨isInt_iff.1 hp, m2, m3⟩
      · exact ⟨m1, isFloat_iff.1 hp, m3⟩
      · exact ⟨m1, m2, isInt_iff.1 hp⟩
  | obj l =>
    obtain ⟨l1, l2, l3⟩ := hc.logging l rfl
    cases f with
    | level =>
      simp only [ConfigState.assign, map_validated] at h
      obtain ⟨hp, rfl⟩ := h
      exact ⟨hc.name, by simp, hc.noModeling, (by rintro _ ⟨⟩; exact ⟨isLevel_iff.1 hp, l2, l3⟩), hc.modeling⟩
    | file =>
      simp only [ConfigState.assign, map_validated] at h
      obtain ⟨hp, rfl⟩ := h
      exact ⟨hc.name, by simp, hc.noModeling, (by rintro _ ⟨⟩; exact ⟨l1, isStr_iff.1 hp, l3⟩), hc.modeling⟩
    | rich =>
      simp only [ConfigState.assign, map_validated] at h
      obtain ⟨hp, rfl⟩ := h
      exact ⟨hc.name, by simp, hc.noModeling, (by rintro _ ⟨⟩; exact ⟨l1, l2, isBool_iff.1 hp⟩), hc.modeling⟩
    | _ =>
      cases cm with
      | raw u => cases h
      | obj m =>
        obtain ⟨m1, m2, m3⟩ := hc.modeling m rfl
        simp only [ConfigState.assign, map_validated] at h
        obtain ⟨hp, rfl⟩ := h
        refine ⟨hc.name, by simp, by simp, hc.logging, ?_⟩
        rintro _ ⟨⟩
        first
          | exact ⟨isInt_iff.1 hp, m2, m3⟩
          | exact ⟨m1, isFloat_iff.1 hp, m3⟩
          | exact ⟨m1, m2, isInt_iff.1 hp⟩

theorem step_sound {c : ConfigState} (hc : c.Sound) (op : CfgOp) : (c.step op).Sound := by
  cases op with
  | load file =>
    rcases loadConfig_kept c file with h | h
    · simpa [ConfigState.step, h] using hc
    · exact h
  | assign f v =>
    simp only [ConfigState.step]
    cases h : c.assign f v with
    | error e => exact hc
    | ok c' => exact assign_sound hc h

theorem steps_sound {c : ConfigState} (hc : c.Sound) (ops : List CfgOp) : (ops.foldl ConfigState.step c).Sound := by
  induction ops generalizing c with
  | nil => exact hc
  | cons op ops ih => exact ih (step_sound hc op)

theorem valueAt_here (v : CVal) : valueAt v [] = some v := by rw [valueAt]

/-! ## C116 -/

/-- **C116 (types).**  Once a file was loaded, whatever is loaded or assigned afterwards, every setting keeps a value of its declared type. -/
theorem C116_types {s c : ConfigState} {file : CVal} (h : loadConfig s file = (c, none)) (ops : List CfgOp) : (ops.foldl ConfigState.step c).Sound :=
  steps_sound (schemaOf_sound (loadConfig_none h).1) ops

/-- **C116 (round trip).**  Then the dictionary, loaded as a file by any program, gives the same configuration again, without an exception unless the
configuration has no logging section. -/
theorem C116_roundtrip {s c : ConfigState} {file : CVal} (h : loadConfig s file = (c, none)) (ops : List CfgOp) (s' : ConfigState) :
    (loadConfig s' (ops.foldl ConfigState.step c).toDict).1 = ops.foldl ConfigState.step c ∧
      ((loadConfig s' (ops.foldl ConfigState.step c).toDict).2 = none ↔ ∃ l, (ops.foldl ConfigState.step c).logging = .obj l) := by
  have hs := schemaOf_toDict (C116_types h ops)
  generalize ops.foldl ConfigState.step c = e at hs ⊢
  unfold loadConfig
  rw [hs]
  cases hl : e.logging with
  | obj l => simp [hl, levelOf]
  | raw v => simp [hl, levelOf]

/-- **C116 (assignments).**  An assignment is accepted exactly if the section exists and the value has the declared type. -/
theorem C116_assign {c : ConfigState} (hc : c.Sound) (f : CfgField) (v : CVal) :
    (∃ c', c.assign f v = .ok c') ↔ (valueAt c.toDict f.path).isSome ∧ HasType f.type v := by
  obtain ⟨cn, cl, cm⟩ := c
  have key : ∀ {p : CVal → Bool} {g : CVal → ConfigState}, (∃ c', (validated p v).map g = .ok c') ↔ p v = true := fun {p g} =>
    ⟨fun ⟨_, h⟩ => (map_validated.1 h).1, fun h => ⟨_, map_validated.2 ⟨h, rfl⟩⟩⟩
  have r1 : ∀ w k, cl = .raw w → valueAt w [k] = none := fun w k e => valueAt_leaf (hc.noLogging w e) _ _
  have r2 : ∀ w k, cm = .raw w → valueAt w [k] = none := fun w k e => valueAt_leaf (hc.noModeling w e) _ _
  have i1 := @isInt_iff v
  have i2 := @isStr_iff v
  have i3 := @isBool_iff v
  have i4 := @isFloat_iff v
  have i5 := @isLevel_iff v
  cases cl with
  | raw w =>
    cases cm with
    | raw u => cases f <;> simp [ConfigState.assign, ConfigState.toDict, CfgField.path, valueAt_cons, pyLookup, Stored.dict, r1, r2]
    | obj m =>
      cases f <;> simp [ConfigState.assign, ConfigState.toDict, CfgField.path, CfgField.type, valueAt_cons, pyLookup, Stored.dict, ModelingCfg.dict, valueAt_here,
        r1, key, i1, i4]
  | obj l =>
    cases cm with
    | raw u =>
      cases f <;> simp [ConfigState.assign, ConfigState.toDict, CfgField.path, CfgField.type, valueAt_cons, pyLookup, Stored.dict, LoggingCfg.dict, valueAt_here,
        r2, key, i2, i3, i5]
    | obj m =>
      cases f <;> simp [ConfigState.assign, ConfigState.toDict, CfgField.path, CfgField.type, valueAt_cons, pyLookup, Stored.dict, LoggingCfg.dict,
        ModelingCfg.dict, valueAt_here, key, i1, i2, i3, i4, i5]

/-- **C116 (one setting).**  An accepted assignment shows in the dictionary at its path, and every other setting stays as it was. -/
theorem C116_only {c c' : ConfigState} {f : CfgField} {v : CVal} (h : c.assign f v = .ok c') :
    valueAt c'.toDict f.path = some v ∧ (∀ g : CfgField, g ≠ f → valueAt c'.toDict g.path = valueAt c.toDict g.path) ∧
      valueAt c'.toDict ["config_name"] = valueAt c.toDict ["config_name"] := by
  obtain ⟨cn, cl, cm⟩ := c
  cases cl <;> cases cm <;> cases f <;> simp only [ConfigState.assign, map_validated, reduceCtorEq] at h
  all_goals
    obtain ⟨-, rfl⟩ := h
    refine ⟨?_, ?_, ?_⟩
    · simp [ConfigState.toDict, CfgField.path, valueAt_cons, pyLookup, Stored.dict, LoggingCfg.dict, ModelingCfg.dict, valueAt_here]
    · intro g hg
      cases g <;> first
        | exact absurd rfl hg
        | simp [ConfigState.toDict, CfgField.path, valueAt_cons, pyLookup, Stored.dict, LoggingCfg.dict, ModelingCfg.dict, valueAt_here]
    · simp [ConfigState.toDict, valueAt_cons, pyLookup, valueAt_here]

/-! ## Examples -/

/-- A complete file. -/
def exCfgFile : CVal := .sec [("config_name", .str "mine"), ("logging", .sec [("level", .str "INFO"), ("file", .str "flixOpt.log"), ("rich", .bool false)]),
  ("modeling", .sec [("BIG", .int 10000000), ("EPSILON", .float (1 / 100000)), ("BIG_BINARY_BOUND", .int 100000)])]

/-- What it says. -/
def exCfgLoaded : ConfigState :=
  ⟨.str "mine", .obj ⟨.str "INFO", .str "flixOpt.log", .bool false⟩, .obj ⟨.int 10000000, .float (1 / 100000), .int 100000⟩⟩

theorem exCfgFile_loads : loadConfig {} exCfgFile = (exCfgLoaded, none) := by
  simp [exCfgFile, exCfgLoaded, loadConfig, schemaOf, storedOf, loggingOf, modelingOf, fieldOf, pyLookup, validated, CVal.isLevel, CVal.isStr, CVal.isBool,
    CVal.isInt, CVal.isFloat, levelOf, bind, Except.bind, Functor.map, Except.map, pure, Except.pure]

example : exCfgLoaded.Sound := C116_types exCfgFile_loads []

/-- A value that is refused, one that is accepted, and a round trip. -/
example : (loadConfig {} ([.assign .level (.str "LOUD"), .assign .rich (.bool true)].foldl ConfigState.step exCfgLoaded).toDict).1.logging =
    .obj ⟨.str "INFO", .str "flixOpt.log", .bool true⟩ := by
  rw [(C116_roundtrip exCfgFile_loads _ _).1]
  simp [exCfgLoaded, ConfigState.step, ConfigState.assign, validated, CVal.isLevel, CVal.isBool, Except.map]

end Flix
