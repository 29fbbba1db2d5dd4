import Verif.Spec.EnergyUnits
import Verif.Lemmas.Rename
import Verif.Lemmas.Sem
import Verif.Lemmas.Frame
import Mathlib.Tactic.FieldSimp
import Mathlib.Tactic.Ring
import Mathlib.Tactic.Linarith

/-!
# Models in other units

`κ` gives the factor of each variable by its label, a row is multiplied by a positive factor.
-/

namespace Flix

theorem num_map_map (f g : ℚ → ℚ) (a : Num) : (a.map f).map g = a.map fun x => g (f x) := by
  cases a <;> simp [Num.map, Function.comp_def]

theorem num_map_id {f : ℚ → ℚ} (h : ∀ x, f x = x) (a : Num) : a.map f = a := by
  have : f = id := funext h
  subst this
  cases a <;> simp [Num.map]

theorem num_map_congr {f g : ℚ → ℚ} (h : ∀ x, f x = g x) (a : Num) : a.map f = a.map g := by rw [funext h]

theorem zip_maps {f f' : ℚ → ℚ → ℚ} {g h p : ℚ → ℚ} (e : ∀ x y, f (g x) (h y) = p (f' x y)) (a b : Num) :
    Num.zip f (a.map g) (b.map h) = (Num.zip f' a b).map (Num.map p) := by
  cases a with
  | s x =>
    cases b with
    | s y => simp [Num.zip, Num.map, Except.map, e]
    | v ys => simp [Num.zip, Num.map, Except.map, e, Function.comp_def]
  | v xs =>
    cases b with
    | s y => simp [Num.zip, Num.map, Except.map, e, Function.comp_def]
    | v ys =>
      simp only [Num.zip, Num.map, List.length_map]
      by_cases hl : xs.length = ys.length
      · simp only [hl, if_true, Except.map, Num.map]
        congr 2
        rw [List.zipWith_map, List.map_zipWith]
        congr 1
        funext x y
        exact e x y
      · simp only [hl, if_false]
        match xs, ys with
        | [], [] => simp at hl
        | [x], [] => simp [Except.map, Num.map]
        | [x], [y] => simp at hl
        | [x], y :: z :: ys => simp [Except.map, Num.map, e, Function.comp_def]
        | [], [y] => simp [Except.map, Num.map]
        | x :: z :: xs, [y] => simp [Except.map, Num.map, e, Function.comp_def]
        | [], y :: z :: ys => simp [Except.map]
        | x :: z :: xs, [] => simp [Except.map]
        | x :: z :: xs, y :: w :: ys => simp [Except.map]

theorem asVector_map (g : ℚ → ℚ) (a : Num) (n : Nat) : asVector (a.map g) n = (asVector a n).map (List.map g) := by
  cases a with
  | s x => simp [asVector, Num.map, Except.map]
  | v xs =>
    simp only [asVector, Num.map, List.length_map]
    split <;> rfl

theorem asVectorOpt_map (g : ℚ → ℚ) (a : Option Num) (n : Nat) : asVectorOpt (a.map (Num.map g)) n = (asVectorOpt a n).map (List.map (Option.map g)) := by
  cases a with
  | none => simp [asVectorOpt, Except.map]
  | some a =>
    simp only [asVectorOpt, Option.map_some, asVector_map]
    cases asVector a n with
    | error e => rfl
    | ok v => simp [Except.map, Function.comp_def]

theorem pyGet_map {α β : Type} (f : α → β) (l : List α) (i : Nat) : pyGet (l.map f) i = (pyGet l i).map f := by
  unfold pyGet
  rw [List.getElem?_map]
  cases l[i]? <;> rfl

/-! ## Variables, calls, constraints, trees -/

variable (κ : String → ℚ)

/-- The variable in its new unit. -/
def Var.sc (x : Var) : Var :=
  { x with
    fixedValue := x.fixedValue.map (Num.map (κ x.label * ·)), lb := x.lb.map (Num.map (κ x.label * ·)), ub := x.ub.map (Num.map (κ x.label * ·))
    previous := x.previous.map (Num.map (κ x.label * ·)) }

/-- The call in a row multiplied by `r`. -/
def Op.sc (r : ℚ) : Op → Op
  | .summand x f i a => .summand (x.sc κ) (f.map (· * (r / κ x.label))) i a
  | .const c => .const (c.map (r * ·))

def Summand.sc (r : ℚ) (sm : Summand) : Summand := { sm with var := sm.var.sc κ, factorVec := sm.factorVec.map (· * (r / κ sm.var.label)) }

/-- The constraint `c'` is `c` in other units, multiplied by a positive number. -/
def ConReq.Sc (c c' : ConReq) : Prop := c'.kind = c.kind ∧ ∃ r : ℚ, 0 < r ∧ c'.ops = c.ops.map (Op.sc κ r)

/-- The variable in its new unit; binary variables stay. -/
def VarS (x x' : Var) : Prop := x' = x.sc κ ∧ (x.isBinary = true → κ x.label = 1)

mutual
  def MTree.Sc : MTree → MTree → Prop
    | .node vs cs ss, .node vs' cs' ss' => List.Forall₂ (VarS κ) vs vs' ∧ List.Forall₂ (ConReq.Sc κ) cs cs' ∧ MTree.ScAll ss ss'
  def MTree.ScAll : List MTree → List MTree → Prop
    | [], [] => True
    | t :: ts, t' :: ts' => MTree.Sc t t' ∧ MTree.ScAll ts ts'
    | [], _ :: _ => False
    | _ :: _, [] => False
end

variable {κ}

theorem scAll_iff {ts ts' : List MTree} : MTree.ScAll κ ts ts' ↔ List.Forall₂ (MTree.Sc κ) ts ts' := by
  induction ts generalizing ts' with
  | nil => cases ts' <;> simp [MTree.ScAll]
  | cons t ts ih => cases ts' <;> simp [MTree.ScAll, ih]

theorem sc_node {vs vs' : List Var} {cs cs' : List ConReq} {ss ss' : List MTree} (h1 : List.Forall₂ (VarS κ) vs vs') (h2 : List.Forall₂ (ConReq.Sc κ) cs cs')
    (h3 : List.Forall₂ (MTree.Sc κ) ss ss') : MTree.Sc κ (.node vs cs ss) (.node vs' cs' ss') := by
  rw [MTree.Sc]
  exact ⟨h1, h2, scAll_iff.2 h3⟩

/-! ## Solutions -/

/-- The assignment in the new units. -/
def Assignment.sc (κ : String → ℚ) (σ : Assignment) : Assignment := fun l t => κ l * σ l t

def Dom.sc (c : ℚ) : Dom → Dom
  | .fixed x => .fixed (c * x)
  | .bounds lb ub => .bounds (lb.map (c * ·)) (ub.map (c * ·))

theorem translate_var_sc (x : Var) : (x.sc κ).translate = x.translate.map (List.map (Dom.sc (κ x.label))) := by
  obtain ⟨l, n, b, fv, lb, ub, pr⟩ := x
  unfold Var.translate Var.sc
  dsimp only
  rw [asVectorOpt_map, asVectorOpt_map, asVectorOpt_map]
  cases asVectorOpt lb n with
  | error e => rfl
  | ok lbv =>
    simp only [Except.map, ok_bind]
    cases asVectorOpt ub n with
    | error e => rfl
    | ok ubv =>
      simp only [ok_bind]
      cases asVectorOpt fv n with
      | error e => rfl
      | ok fvv =>
        simp only [ok_bind]
        refine Eq.trans ?_ (mapM_map_ok (g := Dom.sc (κ l)) (List.range n))
        congr 1
        funext i
        rw [pyGet_map, pyGet_map, pyGet_map]
        cases pyGet fvv i with
        | error e => rfl
        | ok f =>
          simp only [Except.map, ok_bind]
          cases f with
          | some f => rfl
          | none =>
            simp only [Option.map_none]
            cases pyGet lbv i with
            | error e => rfl
            | ok a =>
              simp only [ok_bind]
              cases pyGet ubv i with
              | error e => rfl
              | ok b => rfl

theorem dom_holds_sc {c : ℚ} (hc : 0 < c) (y : ℚ) (d : Dom) : (d.sc c).Holds (c * y) ↔ d.Holds y := by
  cases d with
  | fixed x => simp [Dom.sc, Dom.Holds, hc.ne']
  | bounds lb ub =>
    cases lb <;> cases ub <;> simp [Dom.sc, Dom.Holds, hc]

theorem var_ok_sc (hκ : ∀ l, 0 < κ l) {σ : Assignment} {x x' : Var} (h : VarS κ x x') : x'.Ok (σ.sc κ) ↔ x.Ok σ := by
  obtain ⟨rfl, hb⟩ := h
  unfold Var.Ok
  rw [translate_var_sc]
  cases x.translate with
  | error e => simp [Except.map]
  | ok ds =>
    simp only [Except.map, Except.ok.injEq, exists_eq_left']
    refine forall_congr' fun i => ?_
    rw [List.getElem?_map]
    cases ds[i]? with
    | none => simp
    | some d =>
      simp only [Option.map_some, Option.some.injEq, forall_eq']
      refine and_congr (dom_holds_sc (hκ _) _ d) ?_
      show (x.isBinary = true → (∀ f, d.sc _ ≠ .fixed f) → κ x.label * σ x.label i = 0 ∨ κ x.label * σ x.label i = 1) ↔ _
      by_cases hx : x.isBinary = true
      · rw [hb hx, one_mul]
        refine imp_congr Iff.rfl (imp_congr ?_ Iff.rfl)
        cases d <;> simp [Dom.sc]
      · simp [hx]

theorem mkSummand_sc (r : ℚ) (x : Var) (f : Num) (i : Option (List Nat)) (a : Bool) :
    mkSummand (x.sc κ) (f.map (· * (r / κ x.label))) i a = (mkSummand x f i a).map (Summand.sc κ r) := by
  unfold mkSummand
  have hl : checkLength (f.map (· * (r / κ x.label))) (i.getD (List.range (x.sc κ).length)) = checkLength f (i.getD (List.range x.length)) := by
    unfold checkLength
    rw [num_len_map]
    rfl
  dsimp only
  rw [hl]
  cases checkLength f (i.getD (List.range x.length)) with
  | error e => rfl
  | ok n =>
    simp only [ok_bind]
    rw [asVector_map]
    cases asVector f n with
    | error e => rfl
    | ok v => rfl

/-- The constraint in the new units. -/
def Constraint.sc (κ : String → ℚ) (r : ℚ) (l' : String) (c : Constraint) : Constraint :=
  { c with label := l', summands := c.summands.map (Summand.sc κ r), constant := c.constant.map (r * ·) }

theorem run_sc (r : ℚ) (l' : String) (c : Constraint) (op : Op) : (op.sc κ r).run (c.sc κ r l') = (op.run c).map (Constraint.sc κ r l') := by
  cases op with
  | summand x f i a =>
    show Constraint.addSummand _ _ _ i a = (c.addSummand x f i a).map _
    unfold Constraint.addSummand
    rw [mkSummand_sc]
    cases mkSummand x f i a with
    | error e => rfl
    | ok sm =>
      simp only [Except.map, ok_bind]
      show (updateLength c.length sm.length >>= _) = _
      cases updateLength c.length sm.length with
      | error e => rfl
      | ok n => simp [Except.map, Constraint.sc, ok_bind, pure, Except.pure]
  | const k =>
    show Constraint.addConstant _ (k.map (r * ·)) = (c.addConstant k).map _
    unfold Constraint.addConstant Constraint.addConstantFull
    dsimp only [Constraint.sc]
    unfold Num.add
    rw [zip_maps (f' := (· + ·)) (p := (r * ·)) (fun x y => by ring)]
    cases Num.zip (· + ·) c.constant k with
    | error e => rfl
    | ok k' =>
      simp only [Except.map]
      rw [num_len_map]
      cases updateLength c.length k'.len with
      | error e => rfl
      | ok n => rfl

theorem runOps_sc (r : ℚ) (l' : String) (ops : List Op) (c : Constraint) : runOps (c.sc κ r l') (ops.map (Op.sc κ r)) = (runOps c ops).map (Constraint.sc κ r l') := by
  induction ops generalizing c with
  | nil => rfl
  | cons op ops ih =>
    rw [List.map_cons, runOps, runOps, run_sc]
    cases op.run c with
    | error e => rfl
    | ok c' => exact ih c'

abbrev termSc (κ : String → ℚ) (r : ℚ) (t : ℚ × String × Nat) : ℚ × String × Nat := (t.1 * (r / κ t.2.1), t.2.1, t.2.2)

/-- The row in the new units. -/
def Row.sc (κ : String → ℚ) (r : ℚ) (w : Row) : Row := { w with terms := w.terms.map (termSc κ r), rhs := r * w.rhs }

theorem termsVal_sc (hκ : ∀ l, 0 < κ l) (r : ℚ) (σ : Assignment) (ts : List (ℚ × String × Nat)) : termsVal (σ.sc κ) (ts.map (termSc κ r)) = r * termsVal σ ts := by
  unfold termsVal
  induction ts with
  | nil => simp
  | cons t ts ih =>
    rw [List.map_cons, List.map_cons, List.sum_cons, ih, List.map_cons, List.sum_cons, mul_add]
    have := (hκ t.2.1).ne'
    refine congrArg₂ _ ?_ rfl
    simp only [Assignment.sc, termSc]
    field_simp

theorem holds_sc (hκ : ∀ l, 0 < κ l) {r : ℚ} (hr : 0 < r) {σ : Assignment} {w : Row} : (w.sc κ r).Holds (σ.sc κ) ↔ w.Holds σ := by
  unfold Row.Holds Row.sc
  dsimp only
  rw [termsVal_sc hκ]
  cases w.kind with
  | eq => simp [Kind.rel, hr.ne']
  | ineq => simp [Kind.rel, hr]

theorem pyTerm_sc (r : ℚ) (x : Var) (i : Nat) (f : ℚ) : pyTerm (x.sc κ) i (f * (r / κ x.label)) = (pyTerm x i f).map (termSc κ r) := by
  unfold pyTerm
  show (if i < x.length then _ else _) = _
  split <;> rfl

theorem expr_sc (r : ℚ) (sm : Summand) (t : Nat) : (sm.sc κ r).expr t = (sm.expr t).map (List.map (termSc κ r)) := by
  have one : ∀ (a b : Nat), (do let i ← pyGet sm.indices a; let f ← pyGet (sm.factorVec.map (· * (r / κ sm.var.label))) b; let t ← pyTerm (sm.var.sc κ) i f; return [t] : Except Err (List (ℚ × String × Nat))) =
      (do let i ← pyGet sm.indices a; let f ← pyGet sm.factorVec b; let t ← pyTerm sm.var i f; return [t] : Except Err (List (ℚ × String × Nat))).map
        (List.map (termSc κ r)) := by
    intro a b
    cases pyGet sm.indices a with
    | error e => rfl
    | ok i =>
      simp only [ok_bind]
      rw [pyGet_map]
      cases pyGet sm.factorVec b with
      | error e => rfl
      | ok f =>
        simp only [ok_bind, Except.map]
        rw [pyTerm_sc]
        cases pyTerm sm.var i f <;> rfl
  obtain ⟨x, fv, idx, len, a⟩ := sm
  unfold Summand.expr Summand.sc
  simp only at one ⊢
  cases a
  · simp only [Bool.false_eq_true, if_false]
    by_cases h1 : len = 1
    · simp only [h1, if_true]
      exact one 0 0
    · simp only [h1, if_false]
      by_cases h2 : idx.length = 1
      · simp only [h2, if_true]
        exact one 0 t
      · simp only [h2, if_false]
        exact one t t
  · simp only [if_true]
    rw [← mapM_map_ok]
    congr 1
    funext j
    cases pyGet idx j with
    | error e => rfl
    | ok i =>
      simp only [ok_bind]
      rw [pyGet_map]
      cases pyGet fv j with
      | error e => rfl
      | ok f => exact pyTerm_sc _ _ _ _

theorem translate_sc (r : ℚ) (l' : String) (c : Constraint) : (c.sc κ r l').translate = c.translate.map (List.map (Row.sc κ r)) := by
  unfold Constraint.translate
  dsimp only [Constraint.sc]
  rw [asVector_map]
  cases asVector c.constant c.length with
  | error e => rfl
  | ok cv =>
    simp only [ok_bind, Except.map]
    refine Eq.trans ?_ (mapM_map_ok (g := Row.sc κ r) (List.range c.length))
    congr 1
    funext i
    have : (c.summands.map (Summand.sc κ r)).mapM (fun sm : Summand => sm.expr i) = (c.summands.mapM fun sm : Summand => sm.expr i).map (List.map (List.map (termSc κ r))) := by
      rw [List.mapM_map, ← mapM_map_ok]
      congr 1
      funext sm
      exact expr_sc r sm i
    rw [this, pyGet_map]
    cases c.summands.mapM (fun sm => sm.expr i) with
    | error e => rfl
    | ok tss =>
      simp only [Except.map, ok_bind]
      cases pyGet cv i with
      | error e => rfl
      | ok w => simp [ok_bind, pure, Except.pure, Row.sc, List.map_flatten]

theorem con_ok_sc (hκ : ∀ l, 0 < κ l) {σ : Assignment} {c c' : ConReq} (h : c.Sc κ c') : c'.Ok (σ.sc κ) ↔ c.Ok σ := by
  obtain ⟨h1, r, hr, h2⟩ := h
  have hb : c'.build = c.build.map (Constraint.sc κ r c'.label) := by
    unfold ConReq.build
    rw [h1, h2, ← runOps_sc r c'.label c.ops { label := c.label, kind := c.kind }]
    simp [Constraint.sc, Num.map]
  unfold ConReq.Ok
  rw [hb]
  cases hbr : c.build with
  | error e => simp [Except.map]
  | ok b =>
    simp only [Except.map, Except.ok.injEq, exists_eq_left', exists_and_left]
    rw [translate_sc]
    cases b.translate with
    | error e => simp [Except.map]
    | ok rows => simp [Except.map, holds_sc hκ hr]

mutual
theorem solves_sc (hκ : ∀ l, 0 < κ l) {σ : Assignment} : ∀ {t t' : MTree}, t.Sc κ t' → (t'.Solves (σ.sc κ) ↔ t.Solves σ)
  | .node vs cs ss, .node vs' cs' ss', h => by
    rw [MTree.Sc] at h
    obtain ⟨h1, h2, h3⟩ := h
    rw [MTree.Solves, MTree.Solves, solvesAll_sc hκ h3]
    refine and_congr ?_ (and_congr ?_ Iff.rfl)
    · clear h3 h2
      induction h1 with
      | nil => simp
      | cons hh _ ih => simp [var_ok_sc hκ hh, ih]
    · clear h3 h1
      induction h2 with
      | nil => simp
      | cons hh _ ih => simp [con_ok_sc hκ hh, ih]
theorem solvesAll_sc (hκ : ∀ l, 0 < κ l) {σ : Assignment} : ∀ {t t' : List MTree}, MTree.ScAll κ t t' → (MTree.SolvesAll (σ.sc κ) t' ↔ MTree.SolvesAll σ t)
  | [], [], _ => by simp [MTree.SolvesAll]
  | t :: ts, t' :: ts', h => by
    rw [MTree.ScAll] at h
    rw [MTree.SolvesAll, MTree.SolvesAll, solves_sc hκ h.1, solvesAll_sc hκ h.2]
  | [], _ :: _, h => by simp [MTree.ScAll] at h
  | _ :: _, [], h => by simp [MTree.ScAll] at h
end

mutual
theorem sc_labels : ∀ {t t' : MTree}, t.Sc κ t' → t'.labels = t.labels
  | .node vs cs ss, .node vs' cs' ss', h => by
    rw [MTree.Sc] at h
    obtain ⟨h1, _, h3⟩ := h
    rw [labels_node, labels_node, scAll_labels h3]
    congr 1
    clear h3
    induction h1 with
    | nil => rfl
    | cons hh _ ih => rw [List.map_cons, List.map_cons, ih, hh.1]; rfl
theorem scAll_labels : ∀ {t t' : List MTree}, MTree.ScAll κ t t' → t'.flatMap MTree.labels = t.flatMap MTree.labels
  | [], [], _ => rfl
  | t :: ts, t' :: ts', h => by
    rw [MTree.ScAll] at h
    rw [List.flatMap_cons, List.flatMap_cons, sc_labels h.1, scAll_labels h.2]
  | [], _ :: _, h => by simp [MTree.ScAll] at h
  | _ :: _, [], h => by simp [MTree.ScAll] at h
end

end Flix
