import Verif.Lemmas.Results

/-!
# C56, C57, C59, C60: flattened, saved, cached and reshaped results
-/

namespace Flix

/-! ## C56 -/

/-- **C56 (distinct joined keys).**  In a nested dictionary whose paths give distinct keys every value is found under the key made of its
path. -/
theorem C56_distinct {kvs : List (String × RTree)} (hp : Proper kvs) (hn : Named kvs)
    (hd : ∀ p v q w, LeafAt kvs p v → LeafAt kvs q w → joinPath p = joinPath q → p = q) {p : List String} {v : RTree} (h : LeafAt kvs p v) :
    pyLookup (flattenDict "" kvs) (joinPath p) = some v := by
  have hk : joinPath p ∈ (flattenDict "" kvs).map (·.1) := by
    rw [flattenDict, mem_pyUpdate_keys]
    exact .inr (flattenItems_complete h "" hn)
  obtain ⟨⟨k, w⟩, hm, e⟩ := List.mem_map.1 hk
  have hnd : ((flattenDict "" kvs).map (·.1)).Nodup := by rw [flattenDict]; exact pyUpdate_nodup (by simp) _
  have hs : ∃ q, LeafAt kvs q w ∧ k = joinPath q := by
    rw [flattenDict] at hm
    rcases mem_pyUpdate hm with hm | hm
    · simp at hm
    · exact flattenItems_sound "" kvs hn _ hm
  obtain ⟨q, hq, e'⟩ := hs
  simp only at e
  have := hd _ _ _ _ h hq (by rw [← e, e'])
  subst this
  rw [h.unique hq hp, ← e]
  exact pyLookup_of_mem hnd hm

/-- **C56 (partial).**  If all keys are valid labels (nonempty, no underscore at either end, no double underscore), every value is found
under the key made of its path.  Missing: keys with double underscores, which effect results have (`C56_wrong`). -/
theorem C56_partial {kvs : List (String × RTree)} (hp : Proper kvs) (hn : Named kvs)
    (hl : ∀ d, SubDict kvs d → ∀ q ∈ d, labelIsValid q.1 = true) {p : List String} {v : RTree} (h : LeafAt kvs p v) :
    pyLookup (flattenDict "" kvs) (joinPath p) = some v :=
  C56_distinct hp hn (fun _ _ _ _ h1 h2 e => joinPath_inj (h1.keys (P := fun k => labelIsValid k = true) hl) (h2.keys (P := fun k => labelIsValid k = true) hl) h1.ne_nil h2.ne_nil e) h

/-- **C56 (nothing invented).**  Every entry of the flattened dictionary is a value of the nested one, under the key made of its path. -/
theorem C56_sound {kvs : List (String × RTree)} (hn : Named kvs) {k : String} {v : RTree} (h : (k, v) ∈ flattenDict "" kvs) :
    ∃ p, LeafAt kvs p v ∧ k = joinPath p := by
  rw [flattenDict] at h
  rcases mem_pyUpdate h with h | h
  · simp at h
  · exact flattenItems_sound "" kvs hn _ h

/-- A nested dictionary with two values of one joined key. -/
def exClash : List (String × RTree) := [("a__b", .scal 1), ("a", .dict [("b", .scal 2)])]

/-- **C56 fails** for keys with double underscores: of two values one is lost; the code meant to number the second key never runs. -/
theorem C56_wrong : LeafAt exClash ["a__b"] (.scal 1) ∧ LeafAt exClash ["a", "b"] (.scal 2) ∧ flattenDict "" exClash = [("a__b", .scal 2)] := by
  refine ⟨.here (by simp [exClash]) rfl, .under (k := "a") (sub := [("b", .scal 2)]) (by simp [exClash]) (.here (by simp) rfl), ?_⟩
  have : "a" ++ "__" ++ "b" = "a__b" := by decide +kernel
  simp [exClash, flattenDict, flattenItems, flattenValue, newKey, pyUpdate, pySet, this]

/-- A boiler with one flow. -/
def exBoiler : List (String × RTree) := [("Q_th", .dict [("flow_rate", .arr [1, 2]), ("OnOff", .dict [("on", .arr [1, 1])])]), ("size", .scal 3)]

example : LeafAt exBoiler ["Q_th", "OnOff", "on"] (.arr [1, 1]) :=
  .under (sub := [("flow_rate", .arr [1, 2]), ("OnOff", .dict [("on", .arr [1, 1])])]) (by simp [exBoiler]) (.under (sub := [("on", .arr [1, 1])]) (by simp) (.here (by simp) rfl))

theorem exBoiler_sub {d} (h : SubDict exBoiler d) : d = exBoiler ∨ d = [("flow_rate", .arr [1, 2]), ("OnOff", .dict [("on", .arr [1, 1])])] ∨ d = [("on", .arr [1, 1])] := by
  cases h with
  | self => exact .inl rfl
  | under hm h =>
    simp only [exBoiler, List.mem_cons, Prod.mk.injEq, RTree.dict.injEq, reduceCtorEq, and_false, List.not_mem_nil, or_false] at hm
    obtain ⟨-, rfl⟩ := hm
    cases h with
    | self => exact .inr (.inl rfl)
    | under hm h =>
      simp only [List.mem_cons, Prod.mk.injEq, RTree.dict.injEq, reduceCtorEq, and_false, List.not_mem_nil, or_false, false_or] at hm
      obtain ⟨-, rfl⟩ := hm
      cases h with
      | self => exact .inr (.inr rfl)
      | under hm _ => simp at hm

example : Proper exBoiler ∧ Named exBoiler ∧ ∀ d, SubDict exBoiler d → ∀ q ∈ d, labelIsValid q.1 = true := by
  refine ⟨fun d h => ?_, fun d h => ?_, fun d h => ?_⟩ <;> rcases exBoiler_sub h with rfl | rfl | rfl <;> simp [exBoiler] <;> decide +kernel

/-! ## C57 -/

/-- **C57.**  Saving and loading gives exactly the value described by `Same`. -/
theorem C57_partial (v w : PyVal) : saveAndLoad v = .ok w ↔ Same v w := by
  unfold saveAndLoad
  rw [fmap_ok]
  constructor
  · rintro ⟨j, h, rfl⟩
    exact same_of_convert v h
  · exact convert_of_same

/-- **C57 (plain data).**  What is written to the file is plain JSON data. -/
theorem C57_plain : ∀ (v : PyVal) {j : PyVal}, v.convert = .ok j → Plain j
  | .none, j, h => by rw [PyVal.convert] at h; cases h; exact .none
  | .bool b, j, h => by rw [PyVal.convert] at h; cases h; exact .bool b
  | .int z, j, h => by rw [PyVal.convert] at h; cases h; exact .int z
  | .float q, j, h => by rw [PyVal.convert] at h; cases h; exact .float q
  | .str s, j, h => by rw [PyVal.convert] at h; cases h; exact .str s
  | .npInt z, j, h => by rw [PyVal.convert] at h; cases h; exact .int z
  | .npFloat q, j, h => by rw [PyVal.convert] at h; cases h; exact .float q
  | .datetime s, j, h => by rw [PyVal.convert] at h; cases h; exact .str s
  | .arr xs, j, h => by
    rw [PyVal.convert] at h; cases h
    refine .list fun x hx => ?_
    obtain ⟨q, _, rfl⟩ := List.mem_map.1 hx
    exact .float q
  | .series v, j, h => by rw [PyVal.convert] at h; exact C57_plain v h
  | .other, j, h => by rw [PyVal.convert] at h; cases h
  | .dict kvs, j, h => by
    rw [PyVal.convert] at h
    obtain ⟨js, hjs, rfl⟩ := fmap_ok.1 h
    refine .dict fun q hq => ?_
    obtain ⟨x, hx, _, hc⟩ := forall₂_mem_right (convertEntries_ok.1 hjs) hq
    exact C57_plain x.2 hc
  | .list xs, j, h => by
    rw [PyVal.convert] at h
    obtain ⟨js, hjs, rfl⟩ := fmap_ok.1 h
    refine .list fun q hq => ?_
    obtain ⟨x, hx, hc⟩ := forall₂_mem_right (convertList_ok.1 hjs) hq
    exact C57_plain x hc
  | .tuple xs, j, h => by
    rw [PyVal.convert] at h
    obtain ⟨js, hjs, rfl⟩ := fmap_ok.1 h
    refine .list fun q hq => ?_
    obtain ⟨x, hx, hc⟩ := forall₂_mem_right (convertList_ok.1 hjs) hq
    exact C57_plain x hc
  | .set xs, j, h => by
    rw [PyVal.convert] at h
    obtain ⟨js, hjs, rfl⟩ := fmap_ok.1 h
    refine .list fun q hq => ?_
    obtain ⟨x, hx, hc⟩ := forall₂_mem_right (convertList_ok.1 hjs) hq
    exact C57_plain x hc
  | .objArr xs, j, h => by
    rw [PyVal.convert] at h
    obtain ⟨js, hjs, rfl⟩ := fmap_ok.1 h
    refine .list fun q hq => ?_
    obtain ⟨x, hx, hc⟩ := forall₂_mem_right (convertList_ok.1 hjs) hq
    exact C57_plain x hc
termination_by v => sizeOf v
decreasing_by
  all_goals simp_wf
  all_goals first | (have := List.sizeOf_lt_of_mem hx; omega) | (obtain ⟨k, w⟩ := x; have := List.sizeOf_lt_of_mem hx; simp at this ⊢; omega) | omega

/-- **C57 (lossless).**  Results as the solver leaves them, with series of at least one entry, are read back exactly. -/
theorem C57_exact {v : PyVal} (h : ResultValue v) : saveAndLoad v = .ok v := by
  rw [C57_partial]
  induction h with
  | none => exact .none
  | bool b => exact .bool b
  | int z => exact .int z
  | float q => exact .float q
  | str s => exact .str s
  | arr h => exact .arr h
  | dict _ ih => exact .dict rfl fun i h _ => ih _ (List.getElem_mem h)

/-- **C57 fails** for an empty array, which is read back as an empty list. -/
theorem C57_wrong : saveAndLoad (.arr []) = .ok (.list []) ∧ (PyVal.list []) ≠ .arr [] :=
  ⟨(C57_partial _ _).2 .noEntries, by simp⟩

/-- **C57 (refused).**  A value that cannot be saved makes the saving of everything around it fail. -/
theorem C57_refused (xs ys : List PyVal) (w : PyVal) : saveAndLoad (.list (xs ++ .other :: ys)) ≠ .ok w := by
  rw [Ne, C57_partial]
  intro h
  obtain ⟨j, h, -⟩ := convert_of_same h
  rw [PyVal.convert] at h
  obtain ⟨js, hjs, -⟩ := fmap_ok.1 h
  obtain ⟨y, _, hc⟩ := forall₂_mem_left (convertList_ok.1 hjs) (a := .other) (by simp)
  rw [PyVal.convert] at hc
  cases hc

example : ResultValue (.dict [("flow_rate", .arr [1, 2]), ("size", .float 3), ("OnOff", .dict [("on", .arr [0, 1])]), ("x", .none)]) := by
  refine .dict fun q hq => ?_
  simp only [List.mem_cons, List.not_mem_nil, or_false] at hq
  rcases hq with rfl | rfl | rfl | rfl
  · exact .arr (by simp)
  · exact .float 3
  · exact .dict fun q hq => by
      simp only [List.mem_cons, List.not_mem_nil, or_false] at hq
      subst hq
      exact .arr (by simp)
  · exact .none

example : Same (.tuple [.npInt 1, .bool true]) (.arr [1, 1]) :=
  .numbers (.tuple _) (by simp) (.cons (by exact_mod_cast NumberIs.npInt 1) (.cons (.bool true) .nil))

/-! ## C59 -/

/-- A call that neither asks for results nor saves them. -/
def CalcCall.Quiet : CalcCall → Prop
  | .model => True
  | .solve _ save => save = false
  | .results => False

theorem CalcState.run_append (s : CalcState) (as bs : List CalcCall) : s.run (as ++ bs) = (s.run as).run bs := by
  induction as generalizing s with
  | nil => rfl
  | cons a as ih => rw [List.cons_append, CalcState.run, CalcState.run]; split <;> exact ih _

theorem CalcState.quiet_cache {s : CalcState} (hs : s.cache = none) {cs : List CalcCall} (h : ∀ c ∈ cs, c.Quiet) : (s.run cs).cache = none := by
  induction cs generalizing s with
  | nil => exact hs
  | cons c cs ih =>
    have hc := h c (by simp)
    have ht := fun c' hc' => h c' (List.mem_cons_of_mem _ hc')
    rw [CalcState.run]
    cases c with
    | model => exact ih hs ht
    | results => exact hc.elim
    | solve v save =>
      simp only [CalcCall.Quiet] at hc
      subst hc
      cases hm : s.model with
      | none => simp only [CalcState.step, hm]; exact ih hs ht
      | some _ => simp only [CalcState.step, hm]; exact ih hs ht

theorem CalcState.step_model {s s' : CalcState} {c : CalcCall} (h : s.step c = .ok s') (hm : s.model.isSome) : s'.model.isSome := by
  cases c with
  | model => cases h; rfl
  | results =>
    obtain ⟨r, hr, rfl⟩ := fmap_ok.1 h
    unfold CalcState.results at hr
    split at hr <;> cases hr <;> exact hm
  | solve v save =>
    simp only [CalcState.step] at h
    split at h
    · cases h
    · cases h; rfl
    · obtain ⟨r, hr, h⟩ := bind_ok.1 h
      cases h
      unfold CalcState.results at hr
      split at hr <;> cases hr <;> rfl

theorem CalcState.run_model {s : CalcState} (hm : s.model.isSome) (cs : List CalcCall) : (s.run cs).model.isSome := by
  induction cs generalizing s with
  | nil => exact hm
  | cons c cs ih =>
    rw [CalcState.run]
    split
    · rename_i s' h; exact ih (CalcState.step_model h hm)
    · exact ih hm

theorem CalcState.modelled {s : CalcState} {cs : List CalcCall} (h : .model ∈ cs) : (s.run cs).model.isSome := by
  obtain ⟨as, bs, rfl⟩ := List.append_of_mem h
  rw [CalcState.run_append]
  exact CalcState.run_model (s := { s.run as with model := some none }) rfl bs

/-- **C59 (partial).**  As long as results were neither asked for nor saved, `results()` gives the values of the most recent solve.  Missing: a
solve after that (`C59_wrong`). -/
theorem C59_partial {as : List CalcCall} (hm : .model ∈ as) (hq : ∀ c ∈ as, c.Quiet) (v : Nat) :
    ∃ s', ((({} : CalcState).run (as ++ [.solve v false])).results) = .ok (s', some v) := by
  rw [CalcState.run_append]
  have h1 := CalcState.quiet_cache (s := {}) rfl hq
  have h2 := CalcState.modelled (s := {}) hm
  obtain ⟨m, hm⟩ := Option.isSome_iff_exists.1 h2
  refine ⟨{ ({} : CalcState).run as with model := some (some v), cache := some (some v) }, ?_⟩
  simp [CalcState.run, CalcState.step, hm, CalcState.results, h1]

/-- **C59 (saving).**  The first saving solve writes its own values, and they are what `results()` gives then. -/
theorem C59_saved {as : List CalcCall} (hm : .model ∈ as) (hq : ∀ c ∈ as, c.Quiet) (v : Nat) :
    (({} : CalcState).run (as ++ [.solve v true])).saved = some (some v) ∧
    ∃ s', ((({} : CalcState).run (as ++ [.solve v true])).results) = .ok (s', some v) := by
  rw [CalcState.run_append]
  have h1 := CalcState.quiet_cache (s := {}) rfl hq
  have h2 := CalcState.modelled (s := {}) hm
  obtain ⟨m, hm⟩ := Option.isSome_iff_exists.1 h2
  simp [CalcState.run, CalcState.step, hm, CalcState.results, h1, CalcState.save, bind, Except.bind, pure, Except.pure]

/-- **C59 (frozen).**  Once results were given, every later call gives the same, whatever is modelled and solved in between. -/
theorem C59_frozen {s : CalcState} {r : Option Nat} (h : s.cache = some r) (cs : List CalcCall) :
    ∃ s', (s.run cs).results = .ok (s', r) := by
  have : (s.run cs).cache = some r := by
    induction cs generalizing s with
    | nil => exact h
    | cons c cs ih =>
      rw [CalcState.run]
      split
      · rename_i s' hs
        refine ih ?_
        cases c with
        | model => cases hs; exact h
        | results =>
          obtain ⟨q, hq, rfl⟩ := fmap_ok.1 hs
          simp only [CalcState.results, h] at hq
          cases hq
          exact h
        | solve v save =>
          simp only [CalcState.step] at hs
          split at hs
          · cases hs
          · cases hs; exact h
          · obtain ⟨q, hq, hs⟩ := bind_ok.1 hs
            cases hs
            simp only [CalcState.results, h] at hq
            cases hq
            rfl
      · exact ih h
  exact ⟨s.run cs, by simp only [CalcState.results, this]⟩

/-- **C59 fails** after a second solve: `results()` gives the values of the first one, and the second saving solve writes those to the file. -/
theorem C59_wrong :
    (∃ s', (({} : CalcState).run [.model, .solve 1 false, .results, .solve 2 false]).results = .ok (s', some 1)) ∧
    (({} : CalcState).run [.model, .solve 1 true, .model, .solve 2 true]).saved = some (some 1) :=
  ⟨⟨_, rfl⟩, rfl⟩

example : CalcCall.model ∈ [CalcCall.model, .solve 1 false, .model] ∧ ∀ c ∈ [CalcCall.model, .solve 1 false, .model], c.Quiet := by
  simp [CalcCall.Quiet]

/-! ## C60 -/

theorem columns_spec {n steps : Nat} (hs : 0 < steps) :
    n ≤ (if n % steps ≠ 0 then n / steps + 1 else n / steps) * steps ∧ (if n % steps ≠ 0 then n / steps + 1 else n / steps) * steps < n + steps := by
  have h := Nat.div_add_mod n steps
  have hm := Nat.mod_lt n hs
  rw [Nat.mul_comm] at h
  split <;> rename_i h0
  · rw [Nat.add_mul]; omega
  · have : n % steps = 0 := by simpa using h0
    omega

/-- **C60.**  The array has one row per step; its columns are just enough for the series; the cell in row `r` and column `c` holds value
`c * steps + r` of the series, and NaN (`none`) if there is no such value. -/
theorem C60 (xs : List ℚ) {steps : Nat} (hs : 0 < steps) :
    ∃ (rows : List (List (Option ℚ))) (cols : Nat), reshape2d xs steps = .ok rows ∧ rows.length = steps ∧ (∀ row ∈ rows, row.length = cols) ∧
      xs.length ≤ cols * steps ∧ cols * steps < xs.length + steps ∧
      ∀ r < steps, ∀ c < cols, rows[r]?.bind (·[c]?) = some xs[c * steps + r]? := by
  obtain ⟨h1, h2⟩ := columns_spec (n := xs.length) hs
  refine ⟨_, _, by unfold reshape2d; rw [if_neg (by omega)], by simp, ?_, h1, h2, ?_⟩
  · intro row hr
    obtain ⟨r, _, rfl⟩ := List.mem_map.1 hr
    simp
  · generalize (if xs.length % steps ≠ 0 then xs.length / steps + 1 else xs.length / steps) = cols at h1 h2
    intro r hr c hc
    have hb : c * steps + r < cols * steps := by
      have := Nat.mul_le_mul_right steps (Nat.succ_le_of_lt hc)
      rw [Nat.succ_mul] at this
      omega
    simp only [List.getElem?_map, List.getElem?_range hr, List.getElem?_range hc, Option.map_some, Option.bind_some, List.getElem?_take, if_pos hr, List.getElem?_drop,
      Option.some.injEq]
    by_cases h : c * steps + r < xs.length
    · rw [List.getElem?_append_left (by simpa using h)]
      simp [h]
    · rw [List.getElem?_append_right (by simpa using h), List.getElem?_replicate, if_pos (by simp; omega), List.getElem?_eq_none (by omega)]
      rfl

/-- **C60 (no loss).**  Value `k` of the series stands in row `k mod steps`, column `k div steps`. -/
theorem C60_value (xs : List ℚ) {steps : Nat} (hs : 0 < steps) {k : Nat} (hk : k < xs.length) :
    ∃ rows, reshape2d xs steps = .ok rows ∧ rows[k % steps]?.bind (·[k / steps]?) = some (some xs[k]) := by
  obtain ⟨rows, cols, h, -, -, h1, h2, hv⟩ := C60 xs hs
  refine ⟨rows, h, ?_⟩
  have hc : k / steps < cols := Nat.div_lt_of_lt_mul (by rw [Nat.mul_comm]; omega)
  rw [hv _ (Nat.mod_lt _ hs) _ hc, Nat.div_add_mod', List.getElem?_eq_getElem hk]

/-- **C60 (refused).**  Columns without steps are refused. -/
theorem C60_refused (xs : List ℚ) : reshape2d xs 0 = .error .zeroDivision := rfl

example : reshape2d [1, 2, 3, 4, 5] 2 = .ok [[some 1, some 3, some 5], [some 2, some 4, none]] := by decide +kernel

end Flix
