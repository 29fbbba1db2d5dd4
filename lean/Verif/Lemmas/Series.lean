import Verif.Model.Series
import Verif.Lemmas.Time

/-!
# Histories of calculations on time series
-/

namespace Flix

/-- The user's data of every attribute, written down without time series objects. -/
def userStep (u : List Num) : SCall → List Num
  | .newCell d => u ++ [d]
  | .assign c d => u.set c d
  | .copy c c' => match u[c]? with
    | none => u
    | some d => u.set c' d
  | _ => u

/-- The user's data after a history. -/
def userData (u : List Num) : List SCall → List Num
  | [] => u
  | c :: cs => userData (userStep u c) cs

/-- The calls that transform data belong to one flow system. -/
def SCall.Of (f : Nat) : SCall → Prop
  | .transform g _ => g = f
  | .full g _ _ => g = f
  | .aggregated g _ _ _ => g = f
  | _ => True

/-- What a cell means. -/
def SState.CellInv (f : Nat) (s : SState) (d : Num) : Cell → Prop
  | .raw d' => d' = d
  | .obj i => (f, i) ∈ s.used ∧ ∃ o, s.objs[i]? = some o ∧ makeScalar d = .ok o.data

/-- Every cell means the user's data. -/
structure SState.Inv (f : Nat) (s : SState) (u : List Num) : Prop where
  len : s.cells.length = u.length
  cell : ∀ (c : Nat) (x : Cell) (d : Num), s.cells[c]? = some x → u[c]? = some d → s.CellInv f d x

/-- Objects keep their data and stay registered. -/
structure SState.Keeps (s s' : SState) : Prop where
  used : ∀ q ∈ s.used, q ∈ s'.used
  data : ∀ (i : Nat) (o : TSObj), s.objs[i]? = some o → ∃ o', s'.objs[i]? = some o' ∧ o'.data = o.data

theorem SState.Keeps.refl (s : SState) : s.Keeps s := ⟨fun _ h => h, fun _ o h => ⟨o, h, rfl⟩⟩

theorem SState.Keeps.trans {a b c : SState} (h : a.Keeps b) (h' : b.Keeps c) : a.Keeps c :=
  ⟨fun q hq => h'.used q (h.used q hq), fun i o ho => by
    obtain ⟨o', h1, h2⟩ := h.data i o ho
    obtain ⟨o'', h3, h4⟩ := h'.data i o' h1
    exact ⟨o'', h3, h4.trans h2⟩⟩

theorem SState.Keeps.cellInv {f : Nat} {s s' : SState} (h : s.Keeps s') {d : Num} {x : Cell} (hx : s.CellInv f d x) : s'.CellInv f d x := by
  cases x with
  | raw d' => exact hx
  | obj i =>
    obtain ⟨h1, o, h2, h3⟩ := hx
    obtain ⟨o', h4, h5⟩ := h.data i o h2
    exact ⟨h.used _ h1, o', h4, by rw [h5]; exact h3⟩

theorem SState.Keeps.inv {f : Nat} {s s' : SState} {u : List Num} (h : s.Keeps s') (hc : s'.cells = s.cells) (hi : s.Inv f u) : s'.Inv f u :=
  ⟨by rw [hc]; exact hi.len, fun c x d hx hd => h.cellInv (hi.cell c x d (by rw [← hc]; exact hx) hd)⟩

theorem modify_data {os : List TSObj} {k : Nat} {g : TSObj → TSObj} (hg : ∀ o, (g o).data = o.data) (i : Nat) (o : TSObj)
    (h : os[i]? = some o) : ∃ o', (os.modify k g)[i]? = some o' ∧ o'.data = o.data := by
  rw [List.getElem?_modify, h]
  by_cases e : k = i
  · exact ⟨g o, by simp [e], hg o⟩
  · exact ⟨o, by simp [e], rfl⟩

theorem fold_modify_data {β : Type} (xs : List β) (g : List TSObj → β → List TSObj)
    (hg : ∀ os b (i : Nat) (o : TSObj), os[i]? = some o → ∃ o', (g os b)[i]? = some o' ∧ o'.data = o.data) (os : List TSObj) (i : Nat)
    (o : TSObj) (h : os[i]? = some o) : ∃ o', (xs.foldl g os)[i]? = some o' ∧ o'.data = o.data := by
  induction xs generalizing os o with
  | nil => exact ⟨o, h, rfl⟩
  | cons b xs ih =>
    obtain ⟨o', h1, h2⟩ := hg os b i o h
    obtain ⟨o'', h3, h4⟩ := ih _ o' h1
    exact ⟨o'', h3, h4.trans h2⟩

theorem SState.activate_keeps (f : Nat) (s : SState) (idx : Option (List Int)) : s.Keeps (s.activate f idx) := by
  refine ⟨fun _ h => h, fun i o h => ?_⟩
  refine fold_modify_data s.used _ ?_ s.objs i o h
  intro os q i o ho
  by_cases e : q.1 = f
  · simp only [e, if_true]; exact modify_data (by intro; rfl) i o ho
  · simp only [e, if_false]; exact ⟨o, ho, rfl⟩

theorem SState.insert_keeps (s : SState) (ins : List (Nat × Num)) : s.Keeps (s.insert ins) := by
  refine ⟨fun _ h => h, fun i o h => ?_⟩
  refine fold_modify_data ins _ ?_ s.objs i o h
  intro os q i o ho
  exact modify_data (by intro; rfl) i o ho

/-- A transformed cell: its object has no selection and no aggregated data. -/
def SState.Clean (s : SState) (c : Nat) : Prop :=
  ∃ i o, s.cells[c]? = some (.obj i) ∧ s.objs[i]? = some o ∧ o.active = none ∧ o.agg = none

theorem SState.visit_spec {f : Nat} {s : SState} {u : List Num} (hi : s.Inv f u) (c : Nat) :
    (s.visit f c).1.Inv f u ∧ s.Keeps (s.visit f c).1 ∧ (∀ c', s.Clean c' → (s.visit f c).1.Clean c') ∧
      ((s.visit f c).2 = none → (s.visit f c).1.Clean c) := by
  unfold SState.visit
  cases hc : s.cells[c]? with
  | none => exact ⟨hi, .refl s, fun _ h => h, by simp⟩
  | some x =>
    have hlt : c < s.cells.length := by
      by_contra hn
      rw [List.getElem?_eq_none (by omega)] at hc
      cases hc
    cases x with
    | obj i =>
      have hk : s.Keeps { s with objs := s.objs.modify i TSObj.clear } :=
        ⟨fun _ h => h, fun j o h => modify_data (by intro; rfl) j o h⟩
      refine ⟨hk.inv rfl hi, hk, ?_, ?_⟩
      · rintro c' ⟨j, o, h1, h2, h3, h4⟩
        refine ⟨j, if i = j then o.clear else o, h1, ?_, ?_, ?_⟩
        · simp only [List.getElem?_modify, h2]
          by_cases e : i = j <;> simp [e]
        · split <;> simp [TSObj.clear, h3]
        · split <;> simp [TSObj.clear, h4]
      · intro _
        obtain ⟨d, hd⟩ : ∃ d, u[c]? = some d := ⟨u[c]'(by rw [← hi.len]; exact hlt), List.getElem?_eq_getElem _⟩
        obtain ⟨_, o, ho, _⟩ := hi.cell c _ d hc hd
        exact ⟨i, o.clear, hc, by simp [List.getElem?_modify, ho], rfl, rfl⟩
    | raw d =>
      simp only
      cases hm : makeScalar d with
      | error e => exact ⟨hi, .refl s, fun _ h => h, by simp⟩
      | ok d' =>
        have hk : s.Keeps (s.addObj f c d') :=
          ⟨fun q h => List.mem_append_left _ h, fun j o h => ⟨o, by
            unfold SState.addObj
            simp only
            rw [List.getElem?_append_left (by
              by_contra hn
              rw [List.getElem?_eq_none (by omega)] at h
              cases h)]
            exact h, rfl⟩⟩
        refine ⟨⟨by simpa [SState.addObj] using hi.len, ?_⟩, hk, ?_, ?_⟩
        · intro c' x d'' hx hd
          by_cases e : c = c'
          · subst e
            simp only [SState.addObj, List.getElem?_set_self hlt, Option.some.injEq] at hx
            subst hx
            have : d = d'' := hi.cell c _ d'' hc hd
            subst this
            exact ⟨by simp [SState.addObj], { data := d' }, by simp [SState.addObj], hm⟩
          · simp only [SState.addObj, List.getElem?_set_ne e] at hx
            exact hk.cellInv (hi.cell c' x d'' hx hd)
        · rintro c' ⟨j, o, h1, h2, h3, h4⟩
          have e : c ≠ c' := by rintro rfl; rw [hc] at h1; cases h1
          refine ⟨j, o, by simp only [SState.addObj, List.getElem?_set_ne e]; exact h1, ?_, h3, h4⟩
          simp only [SState.addObj]
          rw [List.getElem?_append_left (by
            by_contra hn
            rw [List.getElem?_eq_none (by omega)] at h2
            cases h2)]
          exact h2
        · intro _
          exact ⟨s.objs.length, { data := d' }, by simp [SState.addObj, hlt], by simp [SState.addObj], rfl, rfl⟩

theorem SState.transform_spec {f : Nat} {u : List Num} (vs : List Nat) : ∀ {s : SState}, s.Inv f u →
    (s.transform f vs).1.Inv f u ∧ s.Keeps (s.transform f vs).1 ∧ (∀ c', s.Clean c' → (s.transform f vs).1.Clean c') ∧
      ((s.transform f vs).2 = none → ∀ c ∈ vs, (s.transform f vs).1.Clean c) := by
  induction vs with
  | nil => intro s hi; exact ⟨hi, .refl s, fun _ h => h, by simp⟩
  | cons c vs ih =>
    intro s hi
    obtain ⟨h1, h2, h3, h4⟩ := s.visit_spec hi c
    unfold SState.transform
    rcases hv : s.visit f c with ⟨s', e⟩
    rw [hv] at h1 h2 h3 h4
    cases e with
    | some e => exact ⟨h1, h2, h3, by simp⟩
    | none =>
      obtain ⟨g1, g2, g3, g4⟩ := ih h1
      refine ⟨g1, h2.trans g2, fun c' h => g3 c' (h3 c' h), ?_⟩
      intro hn c' hc'
      rcases List.mem_cons.1 hc' with rfl | hc'
      · exact g3 _ (h4 rfl)
      · exact g4 hn c' hc'

theorem SState.prepare_inv {f : Nat} {u : List Num} {s : SState} (hi : s.Inv f u) (vs : List Nat) (idx : Option (List Int)) :
    (s.prepare f vs idx).1.Inv f u := by
  obtain ⟨h1, -, -, -⟩ := s.transform_spec vs hi
  unfold SState.prepare
  rcases hv : s.transform f vs with ⟨s', e⟩
  rw [hv] at h1
  cases e with
  | some e => exact h1
  | none => exact (s'.activate_keeps f idx).inv rfl h1

theorem SState.step_inv {f : Nat} {u : List Num} {s : SState} (hi : s.Inv f u) {c : SCall} (hf : c.Of f) :
    (s.step c).1.Inv f (userStep u c) := by
  cases c with
  | newCell d =>
    refine ⟨by simp [SState.step, userStep, hi.len], ?_⟩
    intro c x d' hx hd
    simp only [SState.step, userStep] at hx hd
    by_cases h : c < s.cells.length
    · rw [List.getElem?_append_left h] at hx
      rw [List.getElem?_append_left (by rw [← hi.len]; exact h)] at hd
      exact hi.cell c x d' hx hd
    · rw [List.getElem?_append_right (by omega)] at hx
      rw [List.getElem?_append_right (by rw [← hi.len]; omega), ← hi.len] at hd
      cases hk : c - s.cells.length with
      | zero =>
        simp only [hk, List.getElem?_cons_zero, Option.some.injEq] at hx hd
        subst hx; exact hd
      | succ k => simp [hk] at hx
  | assign c d =>
    refine ⟨by simp [SState.step, userStep, hi.len], ?_⟩
    intro c' x d' hx hd
    simp only [SState.step, userStep] at hx hd
    by_cases e : c = c'
    · subst e
      rw [List.getElem?_set] at hx hd
      simp only [if_true] at hx hd
      split at hx
      · split at hd
        · simp only [Option.some.injEq] at hx hd
          subst hx; exact hd
        · cases hd
      · cases hx
    · rw [List.getElem?_set_ne e] at hx hd
      exact hi.cell c' x d' hx hd
  | copy c c' =>
    simp only [SState.step, SState.copy, userStep]
    cases hx : s.cells[c]? with
    | none =>
      have : u[c]? = none := by
        rw [List.getElem?_eq_none_iff] at hx ⊢
        rw [← hi.len]; exact hx
      simp only [this]; exact hi
    | some x =>
      have hlt : c < s.cells.length := by
        by_contra hn
        rw [List.getElem?_eq_none (by omega)] at hx
        cases hx
      obtain ⟨d, hd⟩ : ∃ d, u[c]? = some d := ⟨u[c]'(by rw [← hi.len]; exact hlt), List.getElem?_eq_getElem _⟩
      simp only [hd]
      refine ⟨by simpa using hi.len, ?_⟩
      intro k y d' hy hd'
      have hk : s.Keeps { s with cells := s.cells.set c' x } := ⟨fun _ h => h, fun _ o h => ⟨o, h, rfl⟩⟩
      by_cases e : c' = k
      · subst e
        simp only [List.getElem?_set, if_true] at hy hd'
        split at hy
        · split at hd'
          · simp only [Option.some.injEq] at hy hd'
            subst hy; subst hd'
            exact hk.cellInv (hi.cell c x d hx hd)
          · cases hd'
        · cases hy
      · simp only [List.getElem?_set_ne e] at hy hd'
        exact hk.cellInv (hi.cell k y d' hy hd')
  | transform g vs =>
    have : g = f := hf
    subst this
    exact (s.transform_spec vs hi).1
  | full g vs idx =>
    have : g = f := hf
    subst this
    exact s.prepare_inv hi vs idx
  | aggregated g vs idx ins =>
    have : g = f := hf
    subst this
    have h := s.prepare_inv hi vs idx
    simp only [SState.step, userStep]
    rcases hv : s.prepare g vs idx with ⟨s', e⟩
    rw [hv] at h
    cases e with
    | some e => exact h
    | none => exact (s'.insert_keeps ins).inv rfl h

theorem SState.run_inv {f : Nat} (cs : List SCall) : ∀ {u : List Num} {s : SState}, s.Inv f u → (∀ c ∈ cs, c.Of f) →
    (s.run cs).Inv f (userData u cs) := by
  induction cs with
  | nil => intro u s hi _; exact hi
  | cons c cs ih =>
    intro u s hi hf
    exact ih (s.step_inv hi (hf c (by simp))) (fun c' h => hf c' (by simp [h]))

theorem SState.inv_empty (f : Nat) : ({} : SState).Inv f [] := ⟨rfl, by intro c x d h; simp at h⟩

/-- Activation sets the selection of every registered object and leaves aggregated data alone. -/
theorem SState.activate_get {f : Nat} {idx : Option (List Int)} (us : List (Nat × Nat)) : ∀ (os : List TSObj) (i : Nat) (o : TSObj),
    os[i]? = some o → ((f, i) ∈ us ∨ o.active = idx) → ∃ o',
      (us.foldl (fun os q => if q.1 = f then os.modify q.2 fun o => { o with active := idx } else os) os)[i]? = some o' ∧
        o'.active = idx ∧ o'.agg = o.agg ∧ o'.data = o.data := by
  induction us with
  | nil =>
    intro os i o ho h
    rcases h with h | h
    · simp at h
    · exact ⟨o, ho, h, rfl, rfl⟩
  | cons q us ih =>
    intro os i o ho h
    simp only [List.foldl_cons]
    by_cases e : q = (f, i)
    · subst e
      simp only [if_true]
      exact ih _ i { o with active := idx } (by simp [List.getElem?_modify, ho]) (.inr rfl)
    · by_cases e' : q.1 = f
      · simp only [e', if_true]
        have ne : q.2 ≠ i := fun e2 => e (by rw [← e', ← e2])
        refine ih _ i o (by simp [List.getElem?_modify, ne, ho]) ?_
        rcases h with h | h
        · rcases List.mem_cons.1 h with h | h
          · exact absurd h.symm e
          · exact .inl h
        · exact .inr h
      · simp only [e', if_false]
        refine ih _ i o ho ?_
        rcases h with h | h
        · rcases List.mem_cons.1 h with h | h
          · exact absurd h.symm e
          · exact .inl h
        · exact .inr h

theorem SState.prepare_ok {f : Nat} {u : List Num} {s : SState} (hi : s.Inv f u) {vs : List Nat} {idx : Option (List Int)}
    (hn : (s.prepare f vs idx).2 = none) {c : Nat} (hc : c ∈ vs) {d : Num} (hd : u[c]? = some d) :
    ∃ i o, (s.prepare f vs idx).1.cells[c]? = some (.obj i) ∧ (s.prepare f vs idx).1.objs[i]? = some o ∧ o.active = idx ∧ o.agg = none ∧
      makeScalar d = .ok o.data := by
  obtain ⟨h1, -, -, h4⟩ := s.transform_spec vs hi
  unfold SState.prepare at hn ⊢
  rcases hv : s.transform f vs with ⟨s', e⟩
  rw [hv] at h1 h4 hn
  cases e with
  | some e => simp at hn
  | none =>
    obtain ⟨i, o, g1, g2, -, g4⟩ := h4 rfl c hc
    obtain ⟨m, o2, g5, g6⟩ := h1.cell c _ d g1 hd
    have : o2 = o := by simp only at g2; rw [g2] at g5; cases g5; rfl
    subst this
    obtain ⟨o', k1, k2, k3, k4⟩ := SState.activate_get (f := f) (idx := idx) s'.used s'.objs i o2 g2 (.inl m)
    exact ⟨i, o', g1, k1, k2, by rw [k3]; exact g4, by rw [k4]; exact g6⟩

end Flix
