import Verif.Lemmas.Logging
import Verif.Lemmas.Core
import Verif.Props.Config

/-!
# C115: log messages go where the configuration says, every line with its time and level
-/

namespace Flix

/-- After a set-up with a known level the logger writes to what was asked for, whatever it wrote to before. -/
theorem C115_setup (opens : String → Bool) (root : Bool) (lg : LoggerState) {level : String} {k : Nat} (file : Option String) (rich : Bool)
    (h : levelWanted level = some k) (n : Nat) :
    (setupLogging opens root lg level file rich).1.writes n = if k ≤ n then targetsWanted opens file rich else [] := by
  have hl := loggingLevel_eq level
  rw [h] at hl
  have hc : (if lg.hasHandlers root = true then [] else lg.handlers) = [] := by
    split_ifs with hh
    · rfl
    · simp only [LoggerState.hasHandlers, Bool.or_eq_true, Bool.not_eq_true', not_or] at hh
      simpa using hh.1
  cases rich <;> cases file with
  | none => simp [setupLogging, hl, hc, loggingHandler, LoggerState.writes, targetsWanted]
  | some p => cases ho : opens p <;> simp [setupLogging, hl, hc, loggingHandler, LoggerState.writes, targetsWanted, ho, Option.filter]

/-- After a change to a known level every handler of the logger writes from this level on, whatever its level was before. -/
theorem C115_change (lg : LoggerState) {level : String} {k : Nat} (h : levelWanted level = some k) (n : Nat) :
    (changeLoggingLevel lg level).1.writes n = if k ≤ n then lg.handlers.map (·.target) else [] := by
  have hl := loggingLevel_eq level
  rw [h] at hl
  simp only [changeLoggingLevel, hl, Option.elim, LoggerState.writes]
  split_ifs with hk
  · rw [List.filter_eq_self.2, List.map_map]
    · rfl
    · intro x hx
      obtain ⟨g, -, rfl⟩ := List.mem_map.1 hx
      simpa using hk
  · rfl

/-- A set-up fails exactly for an unknown level or a file that cannot be opened; with an unknown level nothing changes. -/
theorem C115_refused (opens : String → Bool) (root : Bool) (lg : LoggerState) (level : String) (file : Option String) (rich : Bool) :
    ((setupLogging opens root lg level file rich).2 = none ↔ (levelWanted level).isSome ∧ ∀ p, file = some p → opens p = true) ∧
      (levelWanted level = none → setupLogging opens root lg level file rich = (lg, some .value) ∧ changeLoggingLevel lg level = (lg, some .value)) := by
  have hl := loggingLevel_eq level
  cases hw : levelWanted level with
  | none =>
    rw [hw] at hl
    simp [setupLogging, changeLoggingLevel, hl]
  | some k =>
    rw [hw] at hl
    refine ⟨?_, by simp⟩
    cases rich <;> cases file with
    | none => simp [setupLogging, hl, loggingHandler]
    | some p => cases ho : opens p <;> simp [setupLogging, hl, loggingHandler, ho]

/-- Whatever was asked of a new logger, in whatever order: a message is written to the targets asked for last if its level is at least the one
asked for last, and nowhere else. -/
theorem C115_history (opens : String → Bool) (root : Bool) (ops : List LogOp) (n : Nat) :
    (ops.foldl (LoggerState.ask opens root) {}).writes n =
      if (lastAsked opens ops.reverse).2 ≤ n then (lastAsked opens ops.reverse).1 else [] := by
  suffices H : ∀ rev : List LogOp, let lg := rev.reverse.foldl (LoggerState.ask opens root) {}
      lg.level = (lastAsked opens rev).2 ∧ lg.handlers.map (·.target) = (lastAsked opens rev).1 ∧ ∀ h ∈ lg.handlers, h.level ≤ lg.level by
    obtain ⟨h1, h2, h3⟩ := H ops.reverse
    rw [List.reverse_reverse] at h1 h2 h3
    unfold LoggerState.writes
    rw [h1]
    split_ifs with hn
    · rw [List.filter_eq_self.2, h2]
      intro h hh
      have := h3 h hh
      simp only [decide_eq_true_eq]
      omega
    · rfl
  intro rev
  induction rev with
  | nil => simp [lastAsked]
  | cons op rev ih =>
    simp only [List.reverse_cons, List.foldl_append, List.foldl_cons, List.foldl_nil]
    generalize List.foldl (LoggerState.ask opens root) {} rev.reverse = lg at ih ⊢
    cases op with
    | change level =>
      have hl := loggingLevel_eq level
      cases hw : levelWanted level with
      | none =>
        rw [hw] at hl
        simpa [LoggerState.ask, changeLoggingLevel, hl, lastAsked, hw] using ih
      | some k =>
        rw [hw] at hl
        simp only [LoggerState.ask, changeLoggingLevel, hl, lastAsked, hw, Option.elim]
        refine ⟨trivial, ?_, ?_⟩
        · rw [← ih.2.1, List.map_map]
          rfl
        · intro h hh
          obtain ⟨g, -, rfl⟩ := List.mem_map.1 hh
          exact Nat.le_refl _
    | setup level file rich =>
      have hl := loggingLevel_eq level
      cases hw : levelWanted level with
      | none =>
        rw [hw] at hl
        simpa [LoggerState.ask, setupLogging, hl, lastAsked, hw] using ih
      | some k =>
        rw [hw] at hl
        have hc : (if lg.hasHandlers root = true then [] else lg.handlers) = [] := by
          split_ifs with hh
          · rfl
          · simp only [LoggerState.hasHandlers, Bool.or_eq_true, Bool.not_eq_true', not_or] at hh
            simpa using hh.1
        cases rich <;> cases file with
        | none => simp [LoggerState.ask, setupLogging, hl, hc, loggingHandler, lastAsked, hw, targetsWanted]
        | some p =>
          cases ho : opens p <;>
            simp [LoggerState.ask, setupLogging, hl, hc, loggingHandler, lastAsked, hw, targetsWanted, ho, Option.filter]

/-- A configuration that loads sets the logger up as its section says: the console, the file and the level. -/
theorem C115_config {opens : String → Bool} {root : Bool} {s : ConfigState × LoggerState} {d l : List (String × CVal)} {level path : String}
    {rich : Bool} (hl : d.lookup "logging" = some (.sec l)) (h1 : l.lookup "level" = some (.str level)) (h2 : l.lookup "file" = some (.str path))
    (h3 : l.lookup "rich" = some (.bool rich)) (hok : (loadConfig s.1 (.sec d)).2 = none) :
    ((loadAndLog opens root s (.sec d)).2 = none ↔ opens path = true) ∧
      ∃ k, levelWanted level = some k ∧
        ∀ n, (loadAndLog opens root s (.sec d)).1.2.writes n = if k ≤ n then targetsWanted opens (some path) rich else [] := by
  have e0 : fieldOf d "logging" = .sec l := by simp [fieldOf, pyLookup_eq, hl]
  have e1 : fieldOf l "level" = .str level := by simp [fieldOf, pyLookup_eq, h1]
  have e2 : fieldOf l "file" = .str path := by simp [fieldOf, pyLookup_eq, h2]
  have e3 : fieldOf l "rich" = .bool rich := by simp [fieldOf, pyLookup_eq, h3]
  have hlev : CVal.isLevel (.str level) = true := by
    by_contra hn
    have : loggingOf l = .error .assertion := by
      simp only [loggingOf, e1, validated, hn]
      rfl
    simp [loadConfig, schemaOf, e0, storedOf, this, bind, Except.bind, Functor.map, Except.map] at hok
  have hlog : loggingOf l = .ok { level := .str level, file := .str path, rich := .bool rich } := by
    simp only [loggingOf, e1, e2, e3, validated, hlev, CVal.isStr, CVal.isBool, if_true]
    rfl
  have hw : ∃ k, levelWanted level = some k := by
    simp only [CVal.isLevel, List.contains_eq_mem, List.mem_cons, List.not_mem_nil, or_false, decide_eq_true_eq] at hlev
    rcases hlev with rfl | rfl | rfl | rfl | rfl
    exacts [⟨10, by decide +kernel⟩, ⟨20, by decide +kernel⟩, ⟨30, by decide +kernel⟩, ⟨40, by decide +kernel⟩, ⟨50, by decide +kernel⟩]
  obtain ⟨k, hk⟩ := hw
  have hst : ∃ c : ConfigState, loadConfig s.1 (.sec d) = (c, none) ∧
      c.logging = .obj { level := .str level, file := .str path, rich := .bool rich } := by
    cases hs : schemaOf (.sec d) with
    | error e => simp [loadConfig, hs] at hok
    | ok c =>
      have hc : c.logging = .obj { level := .str level, file := .str path, rich := .bool rich } := by
        unfold schemaOf at hs
        obtain ⟨a, ha, hs⟩ := bind_ok.1 hs
        obtain ⟨b, hb, hs⟩ := bind_ok.1 hs
        obtain ⟨x, hx, hs⟩ := bind_ok.1 hs
        rw [e0, storedOf, hlog] at ha
        cases ha
        cases hs
        rfl
      exact ⟨c, by simp [loadConfig, hs, hc, levelOf], hc⟩
  obtain ⟨c, hc, hcl⟩ := hst
  have hrun : loadAndLog opens root s (.sec d) =
      ((c, (setupLogging opens root s.2 level (some path) rich).1), (setupLogging opens root s.2 level (some path) rich).2) := by
    simp only [loadAndLog, hc, hcl]
  rw [hrun]
  refine ⟨?_, k, hk, fun n => C115_setup opens root s.2 (some path) rich hk n⟩
  rw [(C115_refused opens root s.2 level (some path) rich).1]
  simp [hk]

/-- In the file every line of a message stands behind its time and level, in order, and nothing else is written. -/
theorem C115_file {time level m : List Char} {ls : List (List Char)} (ht : '\n' ∉ time) (hl : '\n' ∉ level) (h : IsLines m ls) :
    IsLines (formatPlain time level m)
      (ls.map fun l => time ++ " | ".toList ++ (level ++ List.replicate (8 - level.length) ' ') ++ " | ".toList ++ l) := by
  rw [formatPlain_join, h.split]
  have e : (fun l => logPrefix time level ++ " ".toList ++ l) =
      fun l => time ++ " | ".toList ++ (level ++ List.replicate (8 - level.length) ' ') ++ " | ".toList ++ l := by
    funext l
    simp [logPrefix, ljust8]
  rw [e]
  refine isLines_join (by simpa using h.some) ?_
  intro a ha
  obtain ⟨l, hl', rfl⟩ := List.mem_map.1 ha
  have := h.whole l hl'
  simp [ht, hl, this]

/-- The file tells messages apart. -/
theorem C115_readable {time level m m' : List Char} (ht : '\n' ∉ time) (hl : '\n' ∉ level)
    (h : formatPlain time level m = formatPlain time level m') : m = m' := by
  have a := C115_file ht hl (isLines_split m)
  have b := C115_file ht hl (isLines_split m')
  rw [h] at a
  have e := a.unique b
  have hinj : Function.Injective fun l : List Char =>
      time ++ " | ".toList ++ (level ++ List.replicate (8 - level.length) ' ') ++ " | ".toList ++ l := fun x y hxy => List.append_cancel_left hxy
  have := (List.map_injective_iff.2 hinj) e
  rw [(isLines_split m).joined, (isLines_split m').joined, this]

/-- The console shows the lines of the file, each in the colour of the level, if the message has no other line breaks.  Missing: messages with other
line breaks, for which it is false. -/
theorem C115_console_partial {time level m : List Char} {ls : List (List Char)} (ht : ∀ c ∈ time, breaksLine c = false)
    (hl : ∀ c ∈ level, breaksLine c = false) (hm : ∀ c ∈ m, breaksLine c = true → c = '\n') (h : IsLines (formatPlain time level m) ls) :
    IsLines (formatColoured time level m) (ls.map fun l => logColour (String.ofList level) ++ l ++ "\x1b[0m".toList) := by
  have hnl : ∀ {t : List Char}, (∀ c ∈ t, breaksLine c = false) → '\n' ∉ t := fun ht hn => by
    have := ht _ hn
    rw [breaks_nl] at this
    cases this
  have e := (C115_file (hnl ht) (hnl hl) (isLines_split m)).unique h
  have hs : splitLines (formatPlain time level m) = ls := by
    rw [h.joined, ← joinNl_eq]
    apply splitLines_join
    intro l hl'
    rw [← e] at hl'
    obtain ⟨a, ha, rfl⟩ := List.mem_map.1 hl'
    refine ⟨by simp, ?_⟩
    intro c hc
    have hac : ∀ c ∈ a, breaksLine c = false := by
      intro c hc
      by_contra hb
      have hmem : c ∈ m := by
        rw [(isLines_split m).joined, ← joinNl_eq]
        exact mem_joinNl ha hc
      have := hm c hmem (by simpa using hb)
      subst this
      exact (isLines_split m).whole a ha hc
    simp only [List.mem_append, List.mem_replicate] at hc
    rcases hc with (((hc | hc) | (hc | ⟨-, rfl⟩)) | hc) | hc
    · exact ht c hc
    · have : c = ' ' ∨ c = '|' ∨ c = ' ' := by simpa using hc
      rcases this with rfl | rfl | rfl <;> decide
    · exact hl c hc
    · decide
    · have : c = ' ' ∨ c = '|' ∨ c = ' ' := by simpa using hc
      rcases this with rfl | rfl | rfl <;> decide
    · exact hac c hc
  unfold formatColoured
  rw [hs]
  refine isLines_join (by simpa using h.some) ?_
  intro b hb
  obtain ⟨l, hl', rfl⟩ := List.mem_map.1 hb
  simp only [List.mem_append, not_or]
  refine ⟨⟨logColour_whole _, h.whole l hl'⟩, by decide⟩

/-- With other line breaks the console shows a line without time and level, and two different messages in the same way. -/
theorem C115_console_wrong : ∃ time level m m' : List Char, (∀ c ∈ time, breaksLine c = false) ∧ (∀ c ∈ level, breaksLine c = false) ∧ m ≠ m' ∧
    formatColoured time level m = formatColoured time level m' ∧
    ∃ ls, IsLines (formatColoured time level m) ls ∧ ∃ l ∈ ls, l = "\x1b[34mb\x1b[0m".toList := by
  refine ⟨"12:00".toList, "INFO".toList, ['a', '\r', 'b'], ['a', '\x0b', 'b'], by decide, by decide, by decide, by decide +kernel,
    _, isLines_split _, ?_⟩
  refine ⟨_, ?_, rfl⟩
  decide +kernel

/-! ## Examples -/

example : IsLines "a\n\nb".toList ["a".toList, [], "b".toList] := ⟨by decide, by decide +kernel, by decide⟩

example : formatPlain "12:00".toList "INFO".toList "a\nb".toList = "12:00 | INFO     | a\n12:00 | INFO     | b".toList := by decide +kernel

example : levelWanted "warning" = some 30 ∧ levelWanted "loud" = none := by decide +kernel

/-- Set up twice, changed in between, with a name that does not exist at the end: only the last set-up counts. -/
example : ([.setup "debug" (some "a.log") false, .change "ERROR", .setup "INFO" (some "b.log") true, .change "loud"].foldl
    (LoggerState.ask (fun _ => true) false) {}).writes 20 = [.rich, .file "b.log"] := by decide +kernel

/-- A handler that was stricter than the new level. -/
example : (changeLoggingLevel { level := 30, handlers := [{ target := .console, level := 50 }] } "debug").1.writes 10 = [.console] := by decide +kernel

example : (loadConfig {} (.sec [("config_name", .str "x"), ("logging", .sec [("level", .str "INFO"), ("file", .str "f"), ("rich", .bool false)])])).2
    = none := by
  simp [loadConfig, schemaOf, storedOf, loggingOf, fieldOf, pyLookup, validated, CVal.isLevel, CVal.isStr, CVal.isBool, levelOf, bind, Except.bind,
    Functor.map, Except.map, pure, Except.pure, modelingOf]

end Flix
