import Verif.Model.Tree
import Mathlib.Algebra.Order.Ring.Rat

/-!
# Deciding whether an assignment is a solution

Used for the concrete examples only: an executable check that agrees with `MTree.Solves`.
-/

namespace Flix

def Dom.holdsB (y : ℚ) : Dom → Bool
  | .fixed x => decide (y = x)
  | .bounds lb ub => (match lb with | some l => decide (l ≤ y) | none => true) && (match ub with | some u => decide (y ≤ u) | none => true)

theorem Dom.holdsB_iff {y : ℚ} {d : Dom} : d.holdsB y = true ↔ d.Holds y := by
  cases d with
  | fixed x => simp [Dom.holdsB, Dom.Holds]
  | bounds lb ub => cases lb <;> cases ub <;> simp [Dom.holdsB, Dom.Holds]

def Dom.isFixed : Dom → Bool
  | .fixed _ => true
  | _ => false

def Var.entryB (σ : Assignment) (x : Var) (i : Nat) (d : Dom) : Bool :=
  d.holdsB (σ x.label i) && (!x.isBinary || d.isFixed || decide (σ x.label i = 0) || decide (σ x.label i = 1))

def Var.okB (σ : Assignment) (x : Var) : Bool :=
  match x.translate with
  | .ok ds => (List.range ds.length).all fun i => match ds[i]? with | some d => x.entryB σ i d | none => true
  | .error _ => false

theorem Var.entryB_iff {σ : Assignment} {x : Var} {i : Nat} {d : Dom} : x.entryB σ i d = true ↔
    d.Holds (σ x.label i) ∧ (x.isBinary = true → (∀ f, d ≠ .fixed f) → σ x.label i = 0 ∨ σ x.label i = 1) := by
  unfold Var.entryB
  rw [Bool.and_eq_true, Dom.holdsB_iff]
  refine and_congr_right fun _ => ?_
  cases d with
  | fixed f => simp [Dom.isFixed]
  | bounds lb ub => cases x.isBinary <;> simp [Dom.isFixed]

theorem Var.okB_iff {σ : Assignment} {x : Var} : x.okB σ = true ↔ x.Ok σ := by
  unfold Var.okB Var.Ok
  cases h : x.translate with
  | error e => simp
  | ok ds =>
    simp only [List.all_eq_true, List.mem_range, Except.ok.injEq, exists_eq_left']
    constructor
    · intro hh i d hd
      have hi : i < ds.length := by
        by_contra hc
        rw [List.getElem?_eq_none (by omega)] at hd
        simp at hd
      have := hh i hi
      rw [hd] at this
      exact Var.entryB_iff.1 this
    · intro hh i hi
      cases hd : ds[i]? with
      | none => rfl
      | some d => exact Var.entryB_iff.2 (hh i d hd)

def Row.holdsB (σ : Assignment) (r : Row) : Bool :=
  match r.kind with
  | .eq => decide (termsVal σ r.terms = r.rhs)
  | .ineq => decide (termsVal σ r.terms ≤ r.rhs)

theorem Row.holdsB_iff {σ : Assignment} {r : Row} : r.holdsB σ = true ↔ r.Holds σ := by
  unfold Row.holdsB Row.Holds
  cases r.kind <;> simp [Kind.rel]

def ConReq.okB (σ : Assignment) (r : ConReq) : Bool :=
  match r.build with
  | .ok c => match c.translate with
    | .ok rows => rows.all (Row.holdsB σ)
    | .error _ => false
  | .error _ => false

theorem ConReq.okB_iff {σ : Assignment} {r : ConReq} : r.okB σ = true ↔ r.Ok σ := by
  unfold ConReq.okB ConReq.Ok
  cases h : r.build with
  | error e => simp
  | ok c =>
    cases h2 : c.translate with
    | error e => simp [h2]
    | ok rows => simp [h2, Row.holdsB_iff]

mutual
def MTree.solvesB (σ : Assignment) : MTree → Bool
  | .node vars cons subs => vars.all (Var.okB σ) && (cons.all (ConReq.okB σ) && MTree.solvesAllB σ subs)
def MTree.solvesAllB (σ : Assignment) : List MTree → Bool
  | [] => true
  | t :: ts => MTree.solvesB σ t && MTree.solvesAllB σ ts
end

mutual
theorem MTree.solvesB_iff {σ : Assignment} : (t : MTree) → (t.solvesB σ = true ↔ t.Solves σ)
  | .node vars cons subs => by
    simp only [MTree.solvesB, MTree.Solves, Bool.and_eq_true, List.all_eq_true, Var.okB_iff, ConReq.okB_iff, MTree.solvesAllB_iff subs]
theorem MTree.solvesAllB_iff {σ : Assignment} : (ts : List MTree) → (MTree.solvesAllB σ ts = true ↔ MTree.SolvesAll σ ts)
  | [] => by simp [MTree.solvesAllB, MTree.SolvesAll]
  | t :: ts => by simp only [MTree.solvesAllB, MTree.SolvesAll, Bool.and_eq_true, MTree.solvesB_iff t, MTree.solvesAllB_iff ts]
end

/-- The model can be built and the assignment solves it. -/
def buildsAndSolvesB {α : Type} (σ : Assignment) (r : Except Err α) (f : α → MTree) : Bool :=
  match r with
  | .ok o => (f o).solvesB σ
  | .error _ => false

theorem builds_and_solves {α : Type} {σ : Assignment} {r : Except Err α} {f : α → MTree} (h : buildsAndSolvesB σ r f = true) :
    ∃ o, r = .ok o ∧ (f o).Solves σ := by
  unfold buildsAndSolvesB at h
  cases hr : r with
  | error e => rw [hr] at h; simp at h
  | ok o => rw [hr] at h; exact ⟨o, rfl, (MTree.solvesB_iff _).1 h⟩

/-- The model can be built. -/
theorem builds {α : Type} {r : Except Err α} (h : r.toBool = true) : ∃ o, r = .ok o := by
  cases r with
  | error e => simp [Except.toBool] at h
  | ok o => exact ⟨o, rfl⟩

/-- The assignment given by a table; variables not listed are zero. -/
def tableSol (tb : List (String × List ℚ)) : Assignment := fun l t => ((tb.lookup l).getD []).getD t 0

end Flix
