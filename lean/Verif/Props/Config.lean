import Verif.Model.Config
import Verif.Lemmas.Results

/-!
# C61, C68: configuration
-/

namespace Flix

/-! ## Specification -/

/-- The value at a path. -/
def valueAt : CVal → List String → Option CVal
  | t, [] => some t
  | .sec kvs, k :: p => (kvs.lookup k).bind fun t => valueAt t p
  | _, _ :: _ => none

/-- A section. -/
def CVal.IsSec (v : CVal) : Prop := ∃ kvs, v = .sec kvs

/-- No key twice in a section. -/
inductive Tidy : CVal → Prop
  | leaf {v} : ¬ v.IsSec → Tidy v
  | sec {kvs} : (kvs.map (·.1)).Nodup → (∀ q ∈ kvs, Tidy q.2) → Tidy (.sec kvs)

/-- On the way to `p` (or there) `o` has a value that is no section. -/
def Blocked (o : CVal) (p : List String) : Prop := ∃ q v, q <+: p ∧ valueAt o q = some v ∧ ¬ v.IsSec

/-! ## Lemmas -/

theorem pyLookup_eq {α} (d : List (String × α)) (k : String) : pyLookup d k = d.lookup k := by
  induction d with
  | nil => rfl
  | cons q d ih =>
    obtain ⟨k', v⟩ := q
    by_cases h : k' = k
    · subst h; simp [pyLookup]
    · have h' : (k == k') = false := by simpa using fun e => h e.symm
      rw [List.lookup_cons, h']
      simp only [pyLookup, List.find?_cons, h, decide_false] at ih ⊢
      exact ih

theorem pyLookup_pySet {α} (d : List (String × α)) (k l : String) (x : α) : pyLookup (pySet d k x) l = if l = k then some x else pyLookup d l := by
  induction d with
  | nil => by_cases h : l = k <;> simp [pySet, pyLookup, h, eq_comm]
  | cons q d ih =>
    rw [pySet]
    simp only [pyLookup] at ih ⊢
    by_cases hq : q.1 = k
    · rw [if_pos hq]
      by_cases h : l = k
      · subst h; simp
      · have h1 : ¬ k = l := fun e => h e.symm
        have h2 : ¬ q.1 = l := by rw [hq]; exact h1
        simp [List.find?_cons, h1, h2, h]
    · rw [if_neg hq]
      by_cases h : q.1 = l
      · have h2 : ¬ l = k := by rw [← h]; exact hq
        simp [List.find?_cons, h, h2]
      · simp only [List.find?_cons, h, decide_false]
        exact ih

theorem pySet_same {α} {d : List (String × α)} {k : String} {x : α} (h : pyLookup d k = some x) : pySet d k x = d := by
  induction d with
  | nil => simp [pyLookup] at h
  | cons q d ih =>
    rw [pySet]
    by_cases hq : q.1 = k
    · simp only [pyLookup, List.find?_cons, hq, decide_true, Option.map_some, Option.some.injEq] at h
      rw [if_pos hq, ← hq, ← h]
    · rw [if_neg hq, ih]
      simpa [pyLookup, List.find?_cons, hq] using h

/-- One level of the merged dictionary. -/
theorem lookup_merge (d : List (String × CVal)) {o : List (String × CVal)} (h : (o.map (·.1)).Nodup) (k : String) :
    pyLookup (mergeConfigs d o) k = ((pyLookup o k).map fun v => mergeValue (pyLookup d k) v).or (pyLookup d k) := by
  induction o generalizing d with
  | nil => simp [mergeConfigs, pyLookup]
  | cons q o ih =>
    obtain ⟨k', v⟩ := q
    simp only [List.map_cons, List.nodup_cons] at h
    rw [mergeConfigs, ih _ h.2, pyLookup_pySet]
    by_cases hk : k = k'
    · subst hk
      have : pyLookup o k = none := by
        simp only [pyLookup, Option.map_eq_none_iff, List.find?_eq_none, decide_eq_true_eq]
        exact fun x hx e => h.1 (List.mem_map.2 ⟨x, hx, e⟩)
      rw [this]
      simp [pyLookup]
    · have hk' : ¬ k' = k := fun e => hk e.symm
      simp only [if_neg hk]
      simp [pyLookup, List.find?_cons, hk']

theorem mergeValue_leaf {d : Option CVal} {v : CVal} (h : ¬ v.IsSec ∨ ∀ t, d = some t → ¬ t.IsSec) : mergeValue d v = v := by
  unfold mergeValue
  split
  · rename_i ds os
    rcases h with h | h
    · exact absurd ⟨_, rfl⟩ h
    · exact absurd ⟨_, rfl⟩ (h _ rfl)
  · rfl

theorem mergeValue_sec (ds os : List (String × CVal)) : mergeValue (some (.sec ds)) (.sec os) = .sec (mergeConfigs ds os) := by rw [mergeValue]

/-- If `m` already holds what merging would put there, merging changes nothing. -/
theorem merge_absorb {m : List (String × CVal)} : ∀ {o : List (String × CVal)}, (∀ q ∈ o, ∃ w, pyLookup m q.1 = some w ∧ mergeValue (some w) q.2 = w) →
    mergeConfigs m o = m
  | [], _ => by rw [mergeConfigs]
  | (k, v) :: o, h => by
    obtain ⟨w, h1, h2⟩ := h (k, v) (by simp)
    simp only at h1 h2
    rw [mergeConfigs, h1, h2, pySet_same h1]
    exact merge_absorb fun q hq => h q (List.mem_cons_of_mem _ hq)

theorem mergeValue_self {v : CVal} (h : Tidy v) : mergeValue (some v) v = v := by
  induction h with
  | leaf h => exact mergeValue_leaf (.inl h)
  | @sec kvs hn _ ih =>
    rw [mergeValue_sec, merge_absorb]
    exact fun q hq => ⟨q.2, pyLookup_of_mem hn hq, ih q hq⟩

theorem mergeValue_twice {v : CVal} (h : Tidy v) : ∀ d, mergeValue (some (mergeValue d v)) v = mergeValue d v := by
  induction h with
  | leaf h => intro d; rw [mergeValue_leaf (.inl h), mergeValue_leaf (.inl h)]
  | @sec kvs hn ht ih =>
    intro d
    by_cases hd : ∃ ds, d = some (.sec ds)
    · obtain ⟨ds, rfl⟩ := hd
      rw [mergeValue_sec, mergeValue_sec, merge_absorb]
      intro q hq
      refine ⟨mergeValue (pyLookup ds q.1) q.2, ?_, ih q hq _⟩
      rw [lookup_merge ds hn, pyLookup_of_mem hn (v := q.2) hq]
      rfl
    · have : ∀ t, d = some t → ¬ t.IsSec := by
        rintro t rfl ⟨ds, rfl⟩
        exact hd ⟨ds, rfl⟩
      rw [mergeValue_leaf (.inr this)]
      exact mergeValue_self (.sec hn ht)

theorem valueAt_cons (kvs : List (String × CVal)) (k : String) (p : List String) :
    valueAt (.sec kvs) (k :: p) = (pyLookup kvs k).bind fun t => valueAt t p := by rw [valueAt, pyLookup_eq]

theorem valueAt_leaf {v : CVal} (h : ¬ v.IsSec) (k : String) (p : List String) : valueAt v (k :: p) = none := by
  cases v <;> first | rfl | exact absurd ⟨_, rfl⟩ h

theorem blocked_cons {kvs : List (String × CVal)} {k : String} {p : List String} : Blocked (.sec kvs) (k :: p) ↔ ∃ t, pyLookup kvs k = some t ∧ Blocked t p := by
  constructor
  · rintro ⟨q, v, hq, hv, hs⟩
    cases q with
    | nil => simp only [valueAt, Option.some.injEq] at hv; exact absurd ⟨_, hv.symm⟩ hs
    | cons a q =>
      obtain ⟨rfl, hq'⟩ := List.cons_prefix_cons.1 hq
      rw [valueAt_cons] at hv
      obtain ⟨t, ht, hv⟩ := Option.bind_eq_some_iff.1 hv
      exact ⟨t, ht, q, v, hq', hv, hs⟩
  · rintro ⟨t, ht, q, v, hq, hv, hs⟩
    exact ⟨k :: q, v, List.cons_prefix_cons.2 ⟨rfl, hq⟩, by rw [valueAt_cons, ht]; exact hv, hs⟩

/-! ## C61 -/

/-- Values and sections at a path of a merged value. -/
theorem merge_at : ∀ (p : List String) {d o : CVal}, Tidy o → d.IsSec → o.IsSec →
    (∀ a, ¬ a.IsSec → (valueAt (mergeValue (some d) o) p = some a ↔ valueAt o p = some a ∨ (valueAt d p = some a ∧ valueAt o p = none ∧ ¬ Blocked o p))) ∧
    ((∃ a, valueAt (mergeValue (some d) o) p = some a ∧ a.IsSec) ↔
      (∃ a, valueAt o p = some a ∧ a.IsSec) ∨ ((∃ a, valueAt d p = some a ∧ a.IsSec) ∧ ¬ Blocked o p))
  | [], d, o, ht, ⟨ds, hd⟩, ⟨os, ho⟩ => by
    subst hd; subst ho
    rw [mergeValue_sec]
    refine ⟨fun a ha => ?_, ?_⟩
    · simp only [valueAt, Option.some.injEq, reduceCtorEq, false_and, and_false, or_false]
      exact ⟨fun h => absurd ⟨_, h.symm⟩ ha, fun h => absurd ⟨_, h.symm⟩ ha⟩
    · exact ⟨fun _ => .inl ⟨_, rfl, _, rfl⟩, fun _ => ⟨_, rfl, _, rfl⟩⟩
  | k :: p, d, o, ht, ⟨ds, hd⟩, ⟨os, ho⟩ => by
    subst hd; subst ho
    cases ht with
    | leaf h => exact absurd ⟨_, rfl⟩ h
    | sec hn ht =>
      rw [mergeValue_sec]
      simp only [valueAt_cons, blocked_cons, lookup_merge ds hn]
      cases ho : pyLookup os k with
      | none => simp
      | some v =>
        have hv : Tidy v := by
          rw [pyLookup] at ho
          obtain ⟨q, hq, rfl⟩ := Option.map_eq_some_iff.1 ho
          exact ht q (List.mem_of_find?_eq_some hq)
        simp only [Option.map_some, Option.some_or, Option.bind_some, Option.some.injEq, exists_eq_left']
        by_cases hs : v.IsSec
        · cases hd : pyLookup ds k with
          | none =>
            rw [mergeValue_leaf (.inr (by simp))]
            simp
          | some t =>
            by_cases hts : t.IsSec
            · simpa using merge_at p hv hts hs
            · rw [mergeValue_leaf (.inr (by rintro _ ⟨⟩; exact hts))]
              cases p with
              | nil =>
                simp only [Option.bind_some, valueAt, Option.some.injEq, reduceCtorEq, false_and, and_false, or_false, implies_true, exists_eq_left', true_and]
                exact ⟨fun h => .inl h, fun _ => hs⟩
              | cons a p => simp [valueAt_leaf hts]
        · rw [mergeValue_leaf (.inl hs)]
          have hb : Blocked v p := ⟨[], v, List.nil_prefix, by rw [valueAt], hs⟩
          simp [hb]

/-- **C61 (values).**  At every path the merged configuration has the value of the override where given; otherwise, unless the override has
a value of its own there or on the way, that of the default; no other values. -/
theorem C61 {d o : List (String × CVal)} (ho : Tidy (.sec o)) (p : List String) {a : CVal} (ha : ¬ a.IsSec) :
    valueAt (.sec (mergeConfigs d o)) p = some a ↔
      valueAt (.sec o) p = some a ∨ (valueAt (.sec d) p = some a ∧ valueAt (.sec o) p = none ∧ ¬ Blocked (.sec o) p) := by
  have := (merge_at p (d := .sec d) ho ⟨_, rfl⟩ ⟨_, rfl⟩).1 a ha
  rwa [mergeValue_sec] at this

/-- **C61 (sections).**  Sections of both are merged: a path leads to a section if it does in the override, or in the default unless the
override has a value there or on the way. -/
theorem C61_sections {d o : List (String × CVal)} (ho : Tidy (.sec o)) (p : List String) :
    (∃ a, valueAt (.sec (mergeConfigs d o)) p = some a ∧ a.IsSec) ↔
      (∃ a, valueAt (.sec o) p = some a ∧ a.IsSec) ∨ ((∃ a, valueAt (.sec d) p = some a ∧ a.IsSec) ∧ ¬ Blocked (.sec o) p) := by
  have := (merge_at p (d := .sec d) ho ⟨_, rfl⟩ ⟨_, rfl⟩).2
  rwa [mergeValue_sec] at this

/-- **C61 (idempotent).**  Merging the same overrides again changes nothing. -/
theorem C61_idempotent (d : List (String × CVal)) {o : List (String × CVal)} (ho : Tidy (.sec o)) :
    mergeConfigs (mergeConfigs d o) o = mergeConfigs d o := by
  have := mergeValue_twice ho (some (.sec d))
  simpa [mergeValue_sec] using this

/-- Defaults and overrides with a shared section. -/
def exDefaults : List (String × CVal) := [("name", .str "flixOpt"), ("logging", .sec [("level", .str "INFO"), ("rich", .bool false)])]
def exOverrides : List (String × CVal) := [("logging", .sec [("level", .str "DEBUG")]), ("extra", .int 1)]

theorem exOverrides_tidy : Tidy (.sec exOverrides) := by
  refine .sec (by decide +kernel) fun q hq => ?_
  simp only [exOverrides, List.mem_cons, List.not_mem_nil, or_false] at hq
  rcases hq with rfl | rfl
  · refine .sec (by decide +kernel) fun q hq => ?_
    simp only [List.mem_cons, List.not_mem_nil, or_false] at hq
    subst hq
    exact .leaf fun ⟨_, h⟩ => by cases h
  · exact .leaf fun ⟨_, h⟩ => by cases h

example : mergeConfigs exDefaults exOverrides =
    [("name", .str "flixOpt"), ("logging", .sec [("level", .str "DEBUG"), ("rich", .bool false)]), ("extra", .int 1)] := by
  simp [exDefaults, exOverrides, mergeConfigs, mergeValue, pySet, pyLookup]

/-! ## C68 -/

theorem validated_ok {ok : CVal → Bool} {v w : CVal} : validated ok v = .ok w ↔ ok v = true ∧ w = v := by
  unfold validated
  split
  · rename_i h
    exact ⟨fun e => (by cases e; exact ⟨h, rfl⟩), fun ⟨_, e⟩ => (by rw [e])⟩
  · rename_i h
    exact ⟨fun e => (by cases e), fun ⟨e, _⟩ => absurd e h⟩

/-- The types declared in the schema. -/
inductive CTy
  | str | bool | int | float | level

/-- Values of the types declared in the schema (config.py:64-78); for Python a truth value is an `int`. -/
inductive HasType : CTy → CVal → Prop
  | str (x : String) : HasType .str (.str x)
  | bool (b : Bool) : HasType .bool (.bool b)
  | int (k : Int) : HasType .int (.int k)
  | intBool (b : Bool) : HasType .int (.bool b)
  | float (x : ℚ) : HasType .float (.float x)
  | level (x : String) (h : x = "DEBUG" ∨ x = "INFO" ∨ x = "WARNING" ∨ x = "ERROR" ∨ x = "CRITICAL") : HasType .level (.str x)

theorem isStr_iff {v : CVal} : v.isStr = true ↔ HasType .str v :=
  ⟨fun h => by cases v <;> simp [CVal.isStr] at h; exact .str _, fun h => by cases h; rfl⟩
theorem isBool_iff {v : CVal} : v.isBool = true ↔ HasType .bool v :=
  ⟨fun h => by cases v <;> simp [CVal.isBool] at h; exact .bool _, fun h => by cases h; rfl⟩
theorem isInt_iff {v : CVal} : v.isInt = true ↔ HasType .int v :=
  ⟨fun h => by cases v <;> simp [CVal.isInt] at h; exacts [.intBool _, .int _], fun h => by cases h <;> rfl⟩
theorem isFloat_iff {v : CVal} : v.isFloat = true ↔ HasType .float v :=
  ⟨fun h => by cases v <;> simp [CVal.isFloat] at h; exact .float _, fun h => by cases h; rfl⟩
theorem isLevel_iff {v : CVal} : v.isLevel = true ↔ HasType .level v :=
  ⟨fun h => by cases v <;> simp [CVal.isLevel] at h; exact .level _ h, fun h => by
    cases h with
    | level x h => simpa [CVal.isLevel] using h⟩

theorem modelingOf_ok {d : List (String × CVal)} {m : ModelingCfg} (h : modelingOf d = .ok m) :
    m = ⟨fieldOf d "BIG", fieldOf d "EPSILON", fieldOf d "BIG_BINARY_BOUND"⟩ ∧ HasType .int m.big ∧ HasType .float m.epsilon ∧ HasType .int m.bigBinaryBound := by
  obtain ⟨a, ha, h⟩ := bind_ok.1 h
  obtain ⟨b, hb, h⟩ := bind_ok.1 h
  obtain ⟨c, hc, h⟩ := bind_ok.1 h
  cases h
  obtain ⟨a1, rfl⟩ := validated_ok.1 ha
  obtain ⟨b1, rfl⟩ := validated_ok.1 hb
  obtain ⟨c1, rfl⟩ := validated_ok.1 hc
  exact ⟨rfl, isInt_iff.1 a1, isFloat_iff.1 b1, isInt_iff.1 c1⟩

theorem loggingOf_ok {d : List (String × CVal)} {m : LoggingCfg} (h : loggingOf d = .ok m) :
    m = ⟨fieldOf d "level", fieldOf d "file", fieldOf d "rich"⟩ ∧ HasType .level m.level ∧ HasType .str m.file ∧ HasType .bool m.rich := by
  obtain ⟨a, ha, h⟩ := bind_ok.1 h
  obtain ⟨b, hb, h⟩ := bind_ok.1 h
  obtain ⟨c, hc, h⟩ := bind_ok.1 h
  cases h
  obtain ⟨a1, rfl⟩ := validated_ok.1 ha
  obtain ⟨b1, rfl⟩ := validated_ok.1 hb
  obtain ⟨c1, rfl⟩ := validated_ok.1 hc
  exact ⟨rfl, isLevel_iff.1 a1, isStr_iff.1 b1, isBool_iff.1 c1⟩

theorem loadConfig_none {s c : ConfigState} {file : CVal} (h : loadConfig s file = (c, none)) : schemaOf file = .ok c ∧ ∃ l, c.logging = .obj l := by
  unfold loadConfig at h
  cases hs : schemaOf file with
  | error e => rw [hs] at h; cases h
  | ok c' =>
    rw [hs] at h
    simp only at h
    cases hl : c'.logging with
    | obj l => rw [hl] at h; cases h; exact ⟨rfl, l, hl⟩
    | raw v => rw [hl] at h; cases h

/-- **C68 (partial).**  After a load without exception: the values are those of the file and of the declared types, for the modelling section
if the file has one.  Missing: files without it (`C68_missing_wrong`), ranges of the numbers (`C68_range_wrong`). -/
theorem C68_partial {s c : ConfigState} {d : List (String × CVal)} (h : loadConfig s (.sec d) = (c, none)) :
    c.name = fieldOf d "config_name" ∧ HasType .str c.name ∧
    (∃ l g, fieldOf d "logging" = .sec g ∧ c.logging = .obj l ∧ l = ⟨fieldOf g "level", fieldOf g "file", fieldOf g "rich"⟩ ∧
      HasType .level l.level ∧ HasType .str l.file ∧ HasType .bool l.rich) ∧
    ∀ g, fieldOf d "modeling" = .sec g → ∃ m, c.modeling = .obj m ∧ m = ⟨fieldOf g "BIG", fieldOf g "EPSILON", fieldOf g "BIG_BINARY_BOUND"⟩ ∧
      HasType .int m.big ∧ HasType .float m.epsilon ∧ HasType .int m.bigBinaryBound := by
  obtain ⟨h, l, hl⟩ := loadConfig_none h
  obtain ⟨lg, h1, h⟩ := bind_ok.1 h
  obtain ⟨md, h2, h⟩ := bind_ok.1 h
  obtain ⟨nm, h3, h⟩ := bind_ok.1 h
  cases h
  obtain ⟨n1, rfl⟩ := validated_ok.1 h3
  simp only at hl
  subst hl
  refine ⟨rfl, isStr_iff.1 n1, ?_, fun g hg => ?_⟩
  · cases hf : fieldOf d "logging" with
    | sec g =>
      rw [hf] at h1
      obtain ⟨l', hl', e⟩ := fmap_ok.1 h1
      cases e
      exact ⟨l, g, rfl, rfl, loggingOf_ok hl'⟩
    | _ => rw [hf] at h1; cases h1
  · rw [hg] at h2
    obtain ⟨m, hm, rfl⟩ := fmap_ok.1 h2
    exact ⟨m, rfl, modelingOf_ok hm⟩

/-- **C68 (complete files).**  A file that states all values, with the declared types, is accepted, and the configuration is what it says. -/
theorem C68_complete (s : ConfigState) {d lg md : List (String × CVal)} (hl : fieldOf d "logging" = .sec lg) (hm : fieldOf d "modeling" = .sec md)
    (hn : HasType .str (fieldOf d "config_name")) (h1 : HasType .level (fieldOf lg "level")) (h2 : HasType .str (fieldOf lg "file"))
    (h3 : HasType .bool (fieldOf lg "rich")) (h4 : HasType .int (fieldOf md "BIG")) (h5 : HasType .float (fieldOf md "EPSILON"))
    (h6 : HasType .int (fieldOf md "BIG_BINARY_BOUND")) :
    loadConfig s (.sec d) = (⟨fieldOf d "config_name", .obj ⟨fieldOf lg "level", fieldOf lg "file", fieldOf lg "rich"⟩,
      .obj ⟨fieldOf md "BIG", fieldOf md "EPSILON", fieldOf md "BIG_BINARY_BOUND"⟩⟩, none) := by
  have e1 := validated_ok.2 ⟨isLevel_iff.2 h1, rfl⟩
  have e2 := validated_ok.2 ⟨isStr_iff.2 h2, rfl⟩
  have e3 := validated_ok.2 ⟨isBool_iff.2 h3, rfl⟩
  have e4 := validated_ok.2 ⟨isInt_iff.2 h4, rfl⟩
  have e5 := validated_ok.2 ⟨isFloat_iff.2 h5, rfl⟩
  have e6 := validated_ok.2 ⟨isInt_iff.2 h6, rfl⟩
  have e7 := validated_ok.2 ⟨isStr_iff.2 hn, rfl⟩
  have hL : loggingOf lg = .ok ⟨fieldOf lg "level", fieldOf lg "file", fieldOf lg "rich"⟩ := by
    unfold loggingOf
    rw [e1, ok_bind, e2, ok_bind, e3]
    rfl
  have hM : modelingOf md = .ok ⟨fieldOf md "BIG", fieldOf md "EPSILON", fieldOf md "BIG_BINARY_BOUND"⟩ := by
    unfold modelingOf
    rw [e4, ok_bind, e5, ok_bind, e6]
    rfl
  unfold loadConfig schemaOf
  simp only [hl, hm, storedOf, hL, hM, e7]
  rfl

/-- **C68 (wrong types).**  A value of another type in a section that is present is refused with an `AssertionError`. -/
theorem C68_wrong_type (s : ConfigState) {d md : List (String × CVal)} (hm : fieldOf d "modeling" = .sec md)
    (h : ¬ HasType .int (fieldOf md "BIG") ∨ ¬ HasType .float (fieldOf md "EPSILON") ∨ ¬ HasType .int (fieldOf md "BIG_BINARY_BOUND")) :
    loadConfig s (.sec d) = (s, some .assertion) := by
  have hv : ∀ (f : CVal → Bool) (v : CVal) (e : Err), validated f v = .error e → e = .assertion := by
    intro f v e he
    unfold validated at he
    split at he
    · cases he
    · cases he; rfl
  have hM : modelingOf md = .error .assertion := by
    cases hh : modelingOf md with
    | ok m =>
      obtain ⟨rfl, a, b, c⟩ := modelingOf_ok hh
      rcases h with h | h | h
      · exact absurd a h
      · exact absurd b h
      · exact absurd c h
    | error e =>
      congr 1
      unfold modelingOf at hh
      cases h1 : validated CVal.isInt (fieldOf md "BIG") with
      | error e1 => rw [h1] at hh; cases hh; exact hv _ _ _ h1
      | ok a =>
        rw [h1, ok_bind] at hh
        cases h2 : validated CVal.isFloat (fieldOf md "EPSILON") with
        | error e1 => rw [h2] at hh; cases hh; exact hv _ _ _ h2
        | ok b =>
          rw [h2, ok_bind] at hh
          cases h3 : validated CVal.isInt (fieldOf md "BIG_BINARY_BOUND") with
          | error e1 => rw [h3] at hh; cases hh; exact hv _ _ _ h3
          | ok c => rw [h3] at hh; cases hh
  have hL : ∀ e, storedOf loggingOf (fieldOf d "logging") = .error e → e = .assertion := by
    intro e he
    cases hf : fieldOf d "logging" with
    | sec lg =>
      rw [hf] at he
      simp only [storedOf] at he
      cases hh : loggingOf lg with
      | ok l => rw [hh] at he; cases he
      | error e' =>
        rw [hh] at he
        cases he
        unfold loggingOf at hh
        cases h1 : validated CVal.isLevel (fieldOf lg "level") with
        | error e1 => rw [h1] at hh; cases hh; exact hv _ _ _ h1
        | ok a =>
          rw [h1, ok_bind] at hh
          cases h2 : validated CVal.isStr (fieldOf lg "file") with
          | error e1 => rw [h2] at hh; cases hh; exact hv _ _ _ h2
          | ok b =>
            rw [h2, ok_bind] at hh
            cases h3 : validated CVal.isBool (fieldOf lg "rich") with
            | error e1 => rw [h3] at hh; cases hh; exact hv _ _ _ h3
            | ok c => rw [h3] at hh; cases hh
    | _ => rw [hf] at he; cases he
  unfold loadConfig schemaOf
  simp only [hm]
  cases hl : storedOf loggingOf (fieldOf d "logging") with
  | error e => have := hL e hl; subst this; rfl
  | ok l => simp only [storedOf, hM]; rfl

example (s : ConfigState) : loadConfig s (.sec [("modeling", .sec [("BIG", .float (1 / 2))])]) = (s, some .assertion) :=
  C68_wrong_type s (md := [("BIG", .float (1 / 2))]) rfl (Or.inl (by intro h; cases h))

/-- **C68 (refused).**  A value of a wrong type raises an `AssertionError` and leaves the configuration as it was. -/
theorem C68_refused {s c : ConfigState} {file : CVal} (h : loadConfig s file = (c, some .assertion)) : c = s := by
  unfold loadConfig at h
  split at h
  · cases h; rfl
  · rename_i c' _
    cases hl : c'.logging with
    | obj l => rw [hl] at h; cases h
    | raw v => rw [hl] at h; cases h

example (s : ConfigState) : loadConfig s (.sec [("config_name", .int 1)]) = (s, some .assertion) := by
  simp [loadConfig, schemaOf, fieldOf, pyLookup, storedOf, validated, CVal.isStr, bind, Except.bind]

/-- The configuration with the logging section only. -/
def exPartFile : List (String × CVal) :=
  [("config_name", .str "mine"), ("logging", .sec [("level", .str "INFO"), ("file", .str "x.log"), ("rich", .bool false)])]

/-- **C68 fails** for a file that states only some values: it is accepted, and instead of the previous or default values there are none. -/
theorem C68_missing_wrong (s : ConfigState) : ∃ c, loadConfig s (.sec exPartFile) = (c, none) ∧ c.modeling = .raw .null := by
  refine ⟨⟨.str "mine", .obj ⟨.str "INFO", .str "x.log", .bool false⟩, .raw .null⟩, ?_, rfl⟩
  simp [loadConfig, schemaOf, exPartFile, fieldOf, pyLookup, storedOf, loggingOf, validated, CVal.isLevel, CVal.isStr, CVal.isBool, levelOf, bind, Except.bind, pure, Except.pure]

/-- **C68 fails** for a file without logging section: the load raises, but the configuration has been replaced. -/
theorem C68_failed_wrong (s : ConfigState) : loadConfig s (.sec [("config_name", .str "mine")]) = (⟨.str "mine", .raw .null, .raw .null⟩, some .attribute) := by
  simp [loadConfig, schemaOf, fieldOf, pyLookup, storedOf, validated, CVal.isStr, levelOf, bind, Except.bind, pure, Except.pure]

/-- A complete file with the given numbers. -/
def exFile (big : Int) (eps : ℚ) : List (String × CVal) :=
  exPartFile ++ [("modeling", .sec [("BIG", .int big), ("EPSILON", .float eps), ("BIG_BINARY_BOUND", .bool true)])]

example (s : ConfigState) := C68_complete s (d := exFile 10 (1 / 2)) rfl rfl (.str _) (.level _ (by simp)) (.str _) (.bool _) (.int _) (.float _) (.intBool _)

/-- **C68 fails** for ranges: negative numbers, and a truth value as a bound, are accepted. -/
theorem C68_range_wrong (s : ConfigState) (big : Int) (eps : ℚ) :
    ∃ c, loadConfig s (.sec (exFile big eps)) = (c, none) ∧ c.modeling = .obj ⟨.int big, .float eps, .bool true⟩ := by
  refine ⟨⟨.str "mine", .obj ⟨.str "INFO", .str "x.log", .bool false⟩, .obj ⟨.int big, .float eps, .bool true⟩⟩, ?_, rfl⟩
  simp [loadConfig, schemaOf, exFile, exPartFile, fieldOf, pyLookup, storedOf, loggingOf, modelingOf, validated, CVal.isLevel, CVal.isStr, CVal.isBool, CVal.isInt, CVal.isFloat, levelOf,
    bind, Except.bind, pure, Except.pure]

end Flix
