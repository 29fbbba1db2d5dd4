import Verif.Lemmas.Series
import Verif.Lemmas.Check

/-!
# What a calculation sees of the user's time series (C42, C43)
-/

namespace Flix

/-- The position an index of numpy means in an array of `n` values. -/
def wrap (n : Nat) (j : Int) : Nat := (if j < 0 then j + n else j).toNat

/-- The index is inside an array of `n` values. -/
def InRange (n : Nat) (j : Int) : Prop := -(n : Int) ≤ j ∧ j < n

/-- The selected values of an array. -/
def pick (xs : List ℚ) (idx : List Int) : List ℚ := idx.map fun j => xs.getD (wrap xs.length j) 0

theorem pyGetI_range {xs : List ℚ} {j : Int} (h : InRange xs.length j) : pyGetI xs j = .ok (xs.getD (wrap xs.length j) 0) := by
  unfold pyGetI wrap
  obtain ⟨h1, h2⟩ := h
  by_cases hj : j < 0
  · have hlt : (j + xs.length).toNat < xs.length := by omega
    simp [hj, show 0 ≤ j + xs.length by omega, List.getElem?_eq_getElem hlt, List.getD_eq_getElem?_getD]
  · have hlt : j.toNat < xs.length := by omega
    simp [hj, List.getElem?_eq_getElem hlt, List.getD_eq_getElem?_getD]

theorem npTake_range {xs : List ℚ} {idx : List Int} (h : ∀ j ∈ idx, InRange xs.length j) : npTake xs idx = .ok (.v (pick xs idx)) := by
  have : idx.mapM (pyGetI xs) = .ok (pick xs idx) := by
    induction idx with
    | nil => rfl
    | cons j idx ih =>
      rw [List.mapM_cons, pyGetI_range (h j (by simp)), ih (fun k hk => h k (by simp [hk]))]
      rfl
  unfold npTake
  rw [this]
  rfl

theorem wrap_lt {n : Nat} {j : Int} (h : InRange n j) : wrap n j < n := by
  obtain ⟨h1, h2⟩ := h
  unfold wrap
  split <;> omega

/-- Either the array is kept or it is constant and stored as its value. -/
theorem makeScalar_array {xs : List ℚ} {d : Num} (h : makeScalar (.v xs) = .ok d) :
    (d = .v xs ∧ xs ≠ []) ∨ ∃ x, d = .s x ∧ xs ≠ [] ∧ ∀ y ∈ xs, y = x := by
  cases xs with
  | nil => simp [makeScalar] at h
  | cons x xs =>
    simp only [makeScalar, Except.ok.injEq] at h
    split at h
    · rename_i hall
      exact .inr ⟨x, h.symm, by simp, fun y hy => by simpa using (List.all_eq_true.1 hall) y hy⟩
    · exact .inl ⟨h.symm, by simp⟩

theorem eq_replicate_of {xs : List ℚ} {x : ℚ} (h : ∀ y ∈ xs, y = x) : List.replicate xs.length x = xs :=
  (List.eq_replicate_of_mem h).symm

/-- C43.  For every series with at least one value: `make_scalar_if_possible` succeeds, and `as_vector` with the number of values gives
back exactly the series. -/
theorem C43 (xs : List ℚ) (hne : xs ≠ []) : ∃ d, makeScalar (.v xs) = .ok d ∧ asVector d xs.length = .ok xs := by
  cases xs with
  | nil => exact absurd rfl hne
  | cons x xs =>
    refine ⟨_, rfl, ?_⟩
    split
    · rename_i hall
      have := eq_replicate_of (xs := x :: xs) (x := x) (fun y hy => by simpa using (List.all_eq_true.1 hall) y hy)
      simp only [asVector, this]
    · simp [asVector]

example : ([3, 3, 3] : List ℚ) ≠ [] ∧ makeScalar (.v [3, 3, 3]) = .ok (.s 3) := ⟨by simp, by decide +kernel⟩

/-- C43 for selections: whatever was stored, the values at selected positions are those of the series. -/
theorem C43_select {xs : List ℚ} {d : Num} (h : makeScalar (.v xs) = .ok d) {idx : List Int} (hr : ∀ j ∈ idx, InRange xs.length j) :
    ∃ y, TSObj.activeData { data := d, active := some idx } = .ok y ∧ asVector y idx.length = .ok (pick xs idx) := by
  rcases makeScalar_array h with ⟨rfl, -⟩ | ⟨x, rfl, -, hx⟩
  · exact ⟨_, npTake_range hr, by simp [asVector, pick]⟩
  · refine ⟨_, rfl, ?_⟩
    simp only [asVector, Except.ok.injEq]
    symm
    have : pick xs idx = List.replicate (pick xs idx).length x := by
      refine List.eq_replicate_of_mem fun y hy => ?_
      simp only [pick, List.mem_map] at hy
      obtain ⟨j, hj, rfl⟩ := hy
      have hlt := wrap_lt (hr j hj)
      rw [List.getD_eq_getElem?_getD, List.getElem?_eq_getElem hlt]
      exact hx _ (List.getElem_mem hlt)
    rw [this]
    simp [pick]

example : ∃ d, makeScalar (.v [1, 2, 5]) = .ok d ∧ ∀ j ∈ [(1 : Int), -1], InRange 3 j :=
  ⟨_, rfl, by intro j hj; simp at hj; rcases hj with rfl | rfl <;> exact ⟨by norm_num, by norm_num⟩⟩

/-- C43: only constant series are stored as scalars, with their value, and other series as they are. -/
theorem C43_iff (xs : List ℚ) (d : Num) :
    makeScalar (.v xs) = .ok d ↔
      xs ≠ [] ∧ ((∃ x, d = .s x ∧ ∀ y ∈ xs, y = x) ∨ (d = .v xs ∧ ∃ y ∈ xs, ∃ z ∈ xs, y ≠ z)) := by
  cases xs with
  | nil => simp [makeScalar]
  | cons x xs =>
    simp only [makeScalar, Except.ok.injEq]
    by_cases hall : ((x :: xs).all fun y => decide (y = x)) = true
    · rw [if_pos hall]
      have hx : ∀ y ∈ x :: xs, y = x := fun y hy => by simpa using (List.all_eq_true.1 hall) y hy
      constructor
      · rintro rfl
        exact ⟨by simp, .inl ⟨x, rfl, hx⟩⟩
      · rintro ⟨-, ⟨z, rfl, hz⟩ | ⟨-, y, hy, z, hz, hne⟩⟩
        · rw [hz x (by simp)]
        · exact absurd ((hx y hy).trans (hx z hz).symm) hne
    · rw [if_neg hall]
      constructor
      · rintro rfl
        refine ⟨by simp, .inr ⟨rfl, ?_⟩⟩
        by_contra hn
        push Not at hn
        exact hall (List.all_eq_true.2 fun y hy => by simpa using hn y hy x (by simp))
      · rintro ⟨-, ⟨z, rfl, hz⟩ | ⟨rfl, -⟩⟩
        · exact absurd (List.all_eq_true.2 fun y hy => by simpa using (hz y hy).trans (hz x (by simp)).symm) hall
        · rfl

/-- The limit of C43: for a series that has not one value per step the compression is not invisible.  Without it every such series is
refused; with it a constant one is accepted for every number of steps. -/
theorem C43_other_length (xs : List ℚ) (n : Nat) (hn : xs.length ≠ n) :
    asVector (.v xs) n = .error .exception ∧
      ∀ x, xs ≠ [] → (∀ y ∈ xs, y = x) → ∃ d, makeScalar (.v xs) = .ok d ∧ asVector d n = .ok (List.replicate n x) := by
  refine ⟨by simp [asVector, hn], fun x hne hx => ⟨.s x, (C43_iff xs _).2 ⟨hne, .inl ⟨x, rfl, hx⟩⟩, rfl⟩⟩

example : ([3, 3] : List ℚ).length ≠ 5 ∧ ∀ y ∈ ([3, 3] : List ℚ), y = 3 := by simp

/-- What the user means by an attribute at a selection of steps: a scalar is the scalar, a series its values at the selected positions. -/
def Means (d : Num) (idx : Option (List Int)) (y : Num) : Prop :=
  match d, idx with
  | .s x, _ => y = .s x
  | .v xs, none => asVector y xs.length = .ok xs
  | .v xs, some js => asVector y js.length = .ok (pick xs js)

/-- The selection is inside the series. -/
def Selects (d : Num) (idx : Option (List Int)) : Prop := ∀ xs js, d = .v xs → idx = some js → ∀ j ∈ js, InRange xs.length j

/-- The value an attribute delivers after a history. -/
def SState.delivers (s : SState) (c : Nat) : Option (Except Err Num) :=
  match s.cells[c]? with
  | some (.obj i) => (s.objs[i]?).map TSObj.activeData
  | _ => none

/-- C42.  For every history of calls on one flow system (new attributes, assignments, copies of attributes, full, segmented and
aggregated calculations, each possibly interrupted by an exception at any point): when the next calculation has prepared its data for the
indices `idx`, every attribute it visited delivers the user's last data at `idx`. -/
theorem C42 (f : Nat) (cs : List SCall) (hf : ∀ c ∈ cs, c.Of f) (vs : List Nat) (idx : Option (List Int))
    (hok : ((({} : SState).run cs).step (.full f vs idx)).2 = none) (c : Nat) (hc : c ∈ vs) (d : Num)
    (hd : (userData [] cs)[c]? = some d) (hsel : Selects d idx) :
    ∃ y, ((({} : SState).run cs).step (.full f vs idx)).1.delivers c = some (.ok y) ∧ Means d idx y := by
  have hi := SState.run_inv cs (SState.inv_empty f) hf
  obtain ⟨i, o, h1, h2, h3, h4, h5⟩ := SState.prepare_ok hi hok hc hd
  have hdel : ((({} : SState).run cs).step (.full f vs idx)).1.delivers c = some o.activeData := by
    simp only [SState.step, SState.delivers, h1, h2, Option.map_some]
  rw [hdel]
  obtain ⟨data, active, agg⟩ := o
  simp only at h3 h4 h5
  subst h3 h4
  cases d with
  | s x =>
    simp only [makeScalar, Except.ok.injEq] at h5
    subst h5
    exact ⟨.s x, rfl, rfl⟩
  | v xs =>
    cases active with
    | none =>
      rcases makeScalar_array h5 with ⟨rfl, -⟩ | ⟨x, rfl, -, hx⟩
      · exact ⟨.v xs, rfl, by simp [Means, asVector]⟩
      · exact ⟨.s x, rfl, by simp only [Means, asVector, eq_replicate_of hx]⟩
    | some js =>
      obtain ⟨y, e1, e2⟩ := C43_select h5 (hsel xs js rfl rfl)
      exact ⟨y, by rw [e1], e2⟩

/-- A history: a full calculation, an aggregated one that replaces data, one that fails; then the user assigns a new scalar to the second
attribute. -/
def historyEx : List SCall :=
  [.newCell (.v [1, 2, 5, 7]), .newCell (.v [3, 3, 3, 3]), .newCell (.v []), .full 0 [0, 1] (some [0, 1]),
    .aggregated 0 [0, 1] (some [2, 3]) [(0, .v [9, 9])], .transform 0 [1, 2], .assign 1 (.s 4), .copy 0 2]

example : (∀ c ∈ historyEx, c.Of 0) ∧ ((({} : SState).run historyEx).step (.full 0 [0, 1, 2] (some [3, 1]))).2 = none ∧
    (userData [] historyEx)[0]? = some (.v [1, 2, 5, 7]) ∧
    ((({} : SState).run historyEx).step (.full 0 [0, 1, 2] (some [3, 1]))).1.delivers 0 = some (.ok (.v [7, 2])) ∧
    ((({} : SState).run historyEx).step (.full 0 [0, 1, 2] (some [3, 1]))).1.delivers 1 = some (.ok (.s 4)) := by
  refine ⟨?_, by decide +kernel, by decide +kernel, by decide +kernel, by decide +kernel⟩
  intro c hc
  simp only [historyEx, List.mem_cons, List.not_mem_nil, or_false] at hc
  rcases hc with rfl | rfl | rfl | rfl | rfl | rfl | rfl | rfl <;> trivial

/-- C42: a selected position that a non-constant series does not have is refused, whatever ran before. -/
theorem C42_out_of_range (f : Nat) (cs : List SCall) (hf : ∀ c ∈ cs, c.Of f) (vs : List Nat) (js : List Int)
    (hok : ((({} : SState).run cs).step (.full f vs (some js))).2 = none) (c : Nat) (hc : c ∈ vs) (xs : List ℚ)
    (hd : (userData [] cs)[c]? = some (.v xs)) (hx : ∃ y ∈ xs, ∃ z ∈ xs, y ≠ z) (hj : ∃ j ∈ js, ¬ InRange xs.length j) :
    ∃ e, ((({} : SState).run cs).step (.full f vs (some js))).1.delivers c = some (.error e) := by
  have hi := SState.run_inv cs (SState.inv_empty f) hf
  obtain ⟨i, o, h1, h2, h3, h4, h5⟩ := SState.prepare_ok hi hok hc hd
  have hdel : ((({} : SState).run cs).step (.full f vs (some js))).1.delivers c = some o.activeData := by
    simp only [SState.step, SState.delivers, h1, h2, Option.map_some]
  rw [hdel]
  obtain ⟨data, active, agg⟩ := o
  simp only at h3 h4 h5
  subst h3 h4
  obtain ⟨-, ⟨x, -, hall⟩ | ⟨rfl, -⟩⟩ := (C43_iff xs data).1 h5
  · obtain ⟨y, hy, z, hz, hne⟩ := hx
    exact absurd ((hall y hy).trans (hall z hz).symm) hne
  · have hbad : ∀ j, ¬ InRange xs.length j → pyGetI xs j = .error .index := by
      intro j hj
      unfold pyGetI
      by_cases h0 : j < 0
      · have : ¬ 0 ≤ j + xs.length := fun h => hj ⟨by omega, by omega⟩
        simp [h0, this]
      · have hge : xs.length ≤ j.toNat := by
          by_contra hlt
          exact hj ⟨by omega, by omega⟩
        simp [h0, List.getElem?_eq_none hge]
    have : ∃ e, js.mapM (pyGetI xs) = .error e := by
      clear hok hdel h1 h2
      induction js with
      | nil => simp at hj
      | cons k js ih =>
        rw [List.mapM_cons]
        cases hk : pyGetI xs k with
        | error e => exact ⟨e, rfl⟩
        | ok y =>
          obtain ⟨j, hjm, hjr⟩ := hj
          rcases List.mem_cons.1 hjm with rfl | hjm
          · rw [hbad j hjr] at hk; cases hk
          · obtain ⟨e, he⟩ := ih ⟨j, hjm, hjr⟩
            exact ⟨e, by rw [he]; rfl⟩
    obtain ⟨e, he⟩ := this
    exact ⟨e, by simp [TSObj.activeData, TSObj.ownData, npTake, he]⟩

theorem insert_cells (s : SState) (ins : List (Nat × Num)) : (s.insert ins).cells = s.cells := rfl

theorem insert_other {ins : List (Nat × Num)} {i : Nat} (h : i ∉ ins.map Prod.fst) (os : List TSObj) :
    (ins.foldl (fun os q => os.modify q.1 fun o => { o with agg := some q.2 }) os)[i]? = os[i]? := by
  induction ins generalizing os with
  | nil => rfl
  | cons q ins ih =>
    simp only [List.map_cons, List.mem_cons, not_or] at h
    rw [List.foldl_cons, ih h.2, List.getElem?_modify]
    simp [Ne.symm h.1]

theorem insert_this {ins : List (Nat × Num)} (hn : (ins.map Prod.fst).Nodup) {i : Nat} {y : Num} (h : (i, y) ∈ ins) {os : List TSObj} {o : TSObj}
    (ho : os[i]? = some o) :
    (ins.foldl (fun os q => os.modify q.1 fun o => { o with agg := some q.2 }) os)[i]? = some { o with agg := some y } := by
  induction ins generalizing os o with
  | nil => simp at h
  | cons q ins ih =>
    rw [List.map_cons, List.nodup_cons] at hn
    rw [List.foldl_cons]
    rcases List.mem_cons.1 h with rfl | h
    · rw [insert_other hn.1, List.getElem?_modify, ho]
      simp
    · have hne : q.1 ≠ i := by
        rintro rfl
        exact hn.1 (List.mem_map.2 ⟨_, h, rfl⟩)
      refine ih hn.2 h ?_
      rw [List.getElem?_modify, ho]
      simp [hne]

/-- **C42 (aggregated calculations).**  After any such history, an aggregated calculation sees the aggregated values of the series it
aggregates, whatever the selection, and the user's own data of all other attributes. -/
theorem C42_aggregated (f : Nat) (cs : List SCall) (hf : ∀ c ∈ cs, c.Of f) (vs : List Nat) (idx : Option (List Int)) (ins : List (Nat × Num))
    (hins : (ins.map Prod.fst).Nodup) (hok : ((({} : SState).run cs).step (.aggregated f vs idx ins)).2 = none) (c : Nat) (hc : c ∈ vs) (d : Num)
    (hd : (userData [] cs)[c]? = some d) (hsel : Selects d idx) :
    ∃ i, ((({} : SState).run cs).step (.aggregated f vs idx ins)).1.cells[c]? = some (.obj i) ∧
      (∀ y, (i, y) ∈ ins → ((({} : SState).run cs).step (.aggregated f vs idx ins)).1.delivers c = some (.ok y)) ∧
      (i ∉ ins.map Prod.fst → ∃ y, ((({} : SState).run cs).step (.aggregated f vs idx ins)).1.delivers c = some (.ok y) ∧ Means d idx y) := by
  have hi := SState.run_inv cs (SState.inv_empty f) hf
  have hst : ∃ s', ((({} : SState).run cs).step (.full f vs idx)) = (s', none) ∧
      ((({} : SState).run cs).step (.aggregated f vs idx ins)) = (s'.insert ins, none) := by
    simp only [SState.step] at hok ⊢
    split at hok
    · next s' h => exact ⟨s', h, rfl⟩
    · cases hok
  obtain ⟨s', hs1, hs2⟩ := hst
  obtain ⟨y, hy, hm⟩ := C42 f cs hf vs idx (by rw [hs1]) c hc d hd hsel
  rw [hs1] at hy
  rw [hs2]
  unfold SState.delivers at hy
  dsimp only at hy ⊢
  cases hcell : s'.cells[c]? with
  | none => rw [hcell] at hy; simp at hy
  | some x =>
    cases x with
    | raw r => rw [hcell] at hy; simp at hy
    | obj i =>
      rw [hcell] at hy
      dsimp only at hy
      refine ⟨i, hcell, ?_, ?_⟩
      · intro z hz
        unfold SState.delivers
        rw [insert_cells, hcell]
        dsimp only [SState.insert]
        cases ho : s'.objs[i]? with
        | none => rw [ho] at hy; simp at hy
        | some o => rw [insert_this hins hz ho]; rfl
      · intro hni
        unfold SState.delivers
        rw [insert_cells, hcell]
        dsimp only [SState.insert]
        rw [insert_other hni]
        exact ⟨y, hy, hm⟩

example : ((({} : SState).run historyEx).step (.aggregated 0 [0, 1, 2] (some [3, 1]) [(0, .v [8, 8])])).1.delivers 0 = some (.ok (.v [8, 8])) ∧
    ((({} : SState).run historyEx).step (.aggregated 0 [0, 1, 2] (some [3, 1]) [(0, .v [8, 8])])).1.delivers 1 = some (.ok (.s 4)) := by
  decide +kernel

/-- Without the restriction to one flow system C42 is false: a parameter object used in two flow systems keeps the time series created for
the first one, the second system clears it but does not activate it, and its calculation sees the whole series. -/
theorem C42_other_system_wrong : ∃ (cs : List SCall) (s : SState), ((({} : SState).run cs).step (.full 1 [0] (some [2, 0]))) = (s, none) ∧
    (userData [] cs)[0]? = some (.v [1, 2, 5]) ∧ s.delivers 0 = some (.ok (.v [1, 2, 5])) ∧ pick [1, 2, 5] [2, 0] = [5, 1] :=
  ⟨[.newCell (.v [1, 2, 5]), .full 0 [0] none], _, rfl, by decide +kernel, by decide +kernel, by decide +kernel⟩

end Flix
