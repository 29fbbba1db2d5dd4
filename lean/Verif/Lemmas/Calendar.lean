import Verif.Model.HeatMap
import Verif.Spec.Calendar
import Mathlib.Tactic.Ring
import Mathlib.Tactic.IntervalCases
import Mathlib.Tactic.Linarith

/-!
# Lemmas on the calendar
-/

namespace Flix

theorem Precedes.append {a b : List Nat} (h : Precedes a b) (x y : List Nat) : Precedes (a ++ x) (b ++ y) := by
  induction a generalizing b with
  | nil => cases h
  | cons u us ih =>
    cases b with
    | nil => cases h
    | cons v vs =>
      rcases h with h | ⟨h1, h2⟩
      · exact Or.inl h
      · exact Or.inr ⟨h1, ih h2⟩

theorem Precedes.under {x y : List Nat} (a : List Nat) (h : Precedes x y) : Precedes (a ++ x) (a ++ y) := by
  induction a with
  | nil => exact h
  | cons u us ih => exact Or.inr ⟨rfl, ih⟩

theorem precedes_split {a b x y : List Nat} (hl : a.length = b.length) (h : Precedes (a ++ x) (b ++ y)) : Precedes a b ∨ (a = b ∧ Precedes x y) := by
  induction a generalizing b with
  | nil => cases b with
    | nil => exact Or.inr ⟨rfl, h⟩
    | cons v vs => simp at hl
  | cons u us ih =>
    cases b with
    | nil => simp at hl
    | cons v vs =>
      rcases h with h | ⟨h1, h2⟩
      · exact Or.inl (Or.inl h)
      · rcases ih (by simpa using hl) h2 with h3 | ⟨h3, h4⟩
        · exact Or.inl (Or.inr ⟨h1, h3⟩)
        · exact Or.inr ⟨by rw [h1, h3], h4⟩

theorem Precedes.irrefl {a : List Nat} : ¬ Precedes a a := by
  induction a with
  | nil => exact id
  | cons u us ih =>
    rintro (h | ⟨_, h⟩)
    · omega
    · exact ih h

/-- The labels are in the order of the times. -/
def Chrono (f : Nat → List Nat) : Prop := ∀ i i', i < i' → Precedes (f i) (f i')

theorem Chrono.finer {f : Nat → List Nat} (h : Chrono f) (q : Nat) : Chrono (fun t => f (t / q) ++ [t % q]) := by
  intro i i' hi
  rcases Nat.lt_or_ge (i / q) (i' / q) with hlt | hge
  · exact (h _ _ hlt).append _ _
  · have he : i / q = i' / q := Nat.le_antisymm (Nat.div_le_div_right hi.le) hge
    show Precedes (f (i / q) ++ [i % q]) (f (i' / q) ++ [i' % q])
    rw [he]
    refine Precedes.under _ (Or.inl ?_)
    have h1 := Nat.div_add_mod i q
    have h2 := Nat.div_add_mod i' q
    rw [he] at h1
    omega

theorem Chrono.comp {f : Nat → List Nat} (h : Chrono f) {g : Nat → Nat} (hg : ∀ i i', i < i' → g i < g i') : Chrono (fun t => f (g t)) :=
  fun i i' hi => h _ _ (hg i i' hi)

/-! ## Years -/

theorem yearDays_ge (y : Nat) : 365 ≤ yearDays y := by unfold yearDays; split <;> omega

/-- Days before year `y + n` counted from year `y`. -/
def daysUpTo (y : Nat) : Nat → Nat
  | 0 => 0
  | n + 1 => daysUpTo y n + yearDays (y + n)

theorem daysUpTo_mono (y : Nat) {n m : Nat} (h : n ≤ m) : daysUpTo y n ≤ daysUpTo y m := by
  induction h with
  | refl => exact le_rfl
  | step _ ih => exact ih.trans (by simp [daysUpTo])

theorem daysUpTo_first (y n : Nat) : daysUpTo y (n + 1) = yearDays y + daysUpTo (y + 1) n := by
  induction n with
  | zero => simp [daysUpTo]
  | succ n ih =>
    have e1 : daysUpTo y (n + 1 + 1) = daysUpTo y (n + 1) + yearDays (y + (n + 1)) := rfl
    have e2 : daysUpTo (y + 1) (n + 1) = daysUpTo (y + 1) n + yearDays (y + 1 + n) := rfl
    rw [e1, ih, e2, show y + (n + 1) = y + 1 + n by omega]; omega

theorem yearFrom_spec (f y k : Nat) (hf : k < 365 * f) : ∃ n, (yearFrom f y k).1 = y + n ∧ k = daysUpTo y n + (yearFrom f y k).2 ∧
    (yearFrom f y k).2 < yearDays (y + n) := by
  induction f generalizing y k with
  | zero => omega
  | succ f ih =>
    unfold yearFrom
    have hy := yearDays_ge y
    split
    · rename_i h
      exact ⟨0, rfl, by simp [daysUpTo], h⟩
    · rename_i h
      obtain ⟨n, h1, h2, h3⟩ := ih (y + 1) (k - yearDays y) (by omega)
      refine ⟨n + 1, by rw [h1]; omega, ?_, by rw [show y + (n + 1) = y + 1 + n by omega]; exact h3⟩
      rw [daysUpTo_first]; omega

theorem yearOf_spec (k : Nat) : ∃ n, (yearOf k).1 = 1970 + n ∧ k = daysUpTo 1970 n + (yearOf k).2 ∧ (yearOf k).2 < yearDays (1970 + n) :=
  yearFrom_spec (k + 1) 1970 k (by omega)

theorem yearOf_unique {k n j : Nat} (h : k = daysUpTo 1970 n + j) (hj : j < yearDays (1970 + n)) : yearOf k = (1970 + n, j) := by
  obtain ⟨n', h1, h2, h3⟩ := yearOf_spec k
  have hn : n = n' := by
    rcases Nat.lt_trichotomy n n' with hl | hl | hl
    · have := daysUpTo_mono 1970 (show n + 1 ≤ n' from hl)
      have e : daysUpTo 1970 (n + 1) = daysUpTo 1970 n + yearDays (1970 + n) := rfl
      omega
    · exact hl
    · have := daysUpTo_mono 1970 (show n' + 1 ≤ n from hl)
      have e : daysUpTo 1970 (n' + 1) = daysUpTo 1970 n' + yearDays (1970 + n') := rfl
      omega
  subst hn
  exact Prod.ext h1 (by show (yearOf k).2 = j; omega)

theorem yearOf_lt {k k' : Nat} (h : k < k') : (yearOf k).1 < (yearOf k').1 ∨ ((yearOf k).1 = (yearOf k').1 ∧ (yearOf k').2 = (yearOf k).2 + (k' - k)) := by
  obtain ⟨n, h1, h2, h3⟩ := yearOf_spec k
  obtain ⟨n', h1', h2', h3'⟩ := yearOf_spec k'
  rcases Nat.lt_trichotomy n n' with hl | hl | hl
  · left; omega
  · right; subst hl; omega
  · have := daysUpTo_mono 1970 (show n' + 1 ≤ n from hl)
    have e : daysUpTo 1970 (n' + 1) = daysUpTo 1970 n' + yearDays (1970 + n') := rfl
    omega

/-! ## Months -/

theorem monthFrom_ge (ls : List Nat) (m j : Nat) : m ≤ (monthFrom ls m j).1 := by
  induction ls generalizing m j with
  | nil => exact le_rfl
  | cons l ls ih =>
    unfold monthFrom
    split
    · exact le_rfl
    · exact (Nat.le_succ m).trans (ih _ _)

theorem monthFrom_lt (ls : List Nat) (m : Nat) {j j' : Nat} (h : j < j') : (monthFrom ls m j).1 < (monthFrom ls m j').1 ∨
    ((monthFrom ls m j).1 = (monthFrom ls m j').1 ∧ (monthFrom ls m j).2 < (monthFrom ls m j').2) := by
  induction ls generalizing m j j' with
  | nil => right; exact ⟨rfl, by simpa [monthFrom] using h⟩
  | cons l ls ih =>
    unfold monthFrom
    by_cases h1 : j < l
    · rw [if_pos h1]
      by_cases h2 : j' < l
      · rw [if_pos h2]; right; exact ⟨rfl, by show j + 1 < j' + 1; omega⟩
      · rw [if_neg h2]; left
        have := monthFrom_ge ls (m + 1) (j' - l)
        show m < _
        omega
    · rw [if_neg h1, if_neg (by omega)]
      exact ih (m + 1) (by omega)

theorem chrono_month : Chrono (fun k => [(yearOf k).1, (monthOf k).1, (monthOf k).2]) := by
  intro k k' h
  rcases yearOf_lt h with hy | ⟨hy, hj⟩
  · exact Or.inl hy
  · refine Or.inr ⟨hy, ?_⟩
    have := monthFrom_lt (monthDays (yearOf k').1) 1 (show (yearOf k).2 < (yearOf k').2 by omega)
    have e : monthOf k = monthFrom (monthDays (yearOf k').1) 1 (yearOf k).2 := by unfold monthOf; rw [hy]
    show Precedes [(monthOf k).1, (monthOf k).2] [(monthOf k').1, (monthOf k').2]
    rw [e]
    rcases this with h1 | ⟨h1, h2⟩
    · exact Or.inl h1
    · exact Or.inr ⟨h1, Or.inl h2⟩

theorem chrono_day : Chrono (fun k => [(yearOf k).1, (yearOf k).2 + 1]) := by
  intro k k' h
  rcases yearOf_lt h with hy | ⟨hy, hj⟩
  · exact Or.inl hy
  · exact Or.inr ⟨hy, Or.inl (by omega)⟩

theorem chrono_week : Chrono (fun k => [(yearOf k).1, weekOf k, if weekday k = 0 then 7 else weekday k]) := by
  intro k k' h
  rcases yearOf_lt h with hy | ⟨hy, hj⟩
  · exact Or.inl hy
  · refine Or.inr ⟨hy, ?_⟩
    show weekOf k < weekOf k' ∨ (weekOf k = weekOf k' ∧ ((if weekday k = 0 then 7 else weekday k) < (if weekday k' = 0 then 7 else weekday k') ∨ _ ∧ False))
    unfold weekOf weekday
    rw [hj]
    obtain ⟨d, rfl⟩ : ∃ d, k' = k + d := ⟨k' - k, by omega⟩
    have hle : (yearOf k).2 ≤ k := by obtain ⟨n, _, h2, _⟩ := yearOf_spec k; omega
    generalize (yearOf k).2 = j at hle ⊢
    have hd : 0 < d := by omega
    rw [Nat.add_sub_cancel_left]
    split_ifs <;> omega

/-! ## The model of the calendar is the calendar -/

theorem monthFrom_succ (ls : List Nat) (m j : Nat) (hpos : ∀ l ∈ ls, 0 < l) (hj : j + 1 < ls.sum) :
    ∃ i l, (monthFrom ls m j).1 = m + i ∧ ls[i]? = some l ∧
      (((monthFrom ls m j).2 < l ∧ monthFrom ls m (j + 1) = (m + i, (monthFrom ls m j).2 + 1)) ∨
       ((monthFrom ls m j).2 = l ∧ i + 1 < ls.length ∧ monthFrom ls m (j + 1) = (m + i + 1, 1))) := by
  induction ls generalizing m j with
  | nil => simp at hj
  | cons a ls ih =>
    rw [List.sum_cons] at hj
    by_cases h1 : j < a
    · have e : monthFrom (a :: ls) m j = (m, j + 1) := by unfold monthFrom; rw [if_pos h1]
      refine ⟨0, a, by rw [e]; rfl, rfl, ?_⟩
      rw [e]
      by_cases h2 : j + 1 < a
      · left; exact ⟨h2, by unfold monthFrom; rw [if_pos h2]; rfl⟩
      · right
        refine ⟨by show j + 1 = a; omega, ?_, ?_⟩
        · cases ls with
          | nil => rw [List.sum_nil] at hj; omega
          | cons b bs => simp
        · have e2 : monthFrom (a :: ls) m (j + 1) = monthFrom ls (m + 1) (j + 1 - a) := by rw [monthFrom, if_neg h2]
          rw [e2, show j + 1 - a = 0 by omega]
          cases ls with
          | nil => rfl
          | cons b bs => rw [monthFrom, if_pos (hpos b (by simp))]
    · have e : ∀ i, a ≤ i → monthFrom (a :: ls) m i = monthFrom ls (m + 1) (i - a) := fun i hi => by rw [monthFrom, if_neg (by omega)]
      obtain ⟨i, l, g1, g2, g3⟩ := ih (m + 1) (j - a) (fun l hl => hpos l (List.mem_cons_of_mem _ hl)) (by omega)
      rw [e j (by omega), e (j + 1) (by omega), show j + 1 - a = j - a + 1 by omega]
      refine ⟨i + 1, l, by rw [g1]; omega, g2, ?_⟩
      rcases g3 with ⟨a1, a2⟩ | ⟨a1, a2, a3⟩
      · left; exact ⟨a1, by rw [a2]; exact Prod.ext (by show m + 1 + i = m + (i + 1); omega) rfl⟩
      · right; exact ⟨a1, by simpa using a2, by rw [a3]; exact Prod.ext (by show m + 1 + i + 1 = m + (i + 1) + 1; omega) rfl⟩

theorem leap_iff (y : Nat) : leapYear y = true ↔ (4 ∣ y ∧ (100 ∣ y → 400 ∣ y)) := by
  unfold leapYear
  simp only [Bool.and_eq_true, beq_iff_eq, Bool.or_eq_true, bne_iff_ne, ne_eq]
  omega

theorem monthDays_spec {y i l : Nat} (h : (monthDays y)[i]? = some l) : DaysOfMonth y (1 + i) l := by
  have hi : i < 12 := by
    have := (List.getElem?_eq_some_iff.1 h).1
    simpa [monthDays] using this
  unfold monthDays at h
  have hl := leap_iff y
  interval_cases i <;> simp at h <;> subst h <;> refine ⟨?_, ?_, ?_⟩ <;> simp
  unfold DaysOfYear
  split_ifs with hh
  · exact ⟨fun _ => rfl, fun hn => absurd (hl.1 hh) hn⟩
  · exact ⟨fun hp => absurd (hl.2 hp) hh, fun _ => rfl⟩

theorem monthDays_sum (y : Nat) : (monthDays y).sum = yearDays y := by
  unfold monthDays yearDays
  split_ifs <;> rfl

theorem monthFrom_last (y : Nat) : monthFrom (monthDays y) 1 (yearDays y - 1) = (12, 31) := by
  unfold monthDays yearDays
  split_ifs <;> rfl

theorem yearOf_succ (k : Nat) : yearOf (k + 1) = if (yearOf k).2 + 1 < yearDays (yearOf k).1 then ((yearOf k).1, (yearOf k).2 + 1) else ((yearOf k).1 + 1, 0) := by
  obtain ⟨n, h1, h2, h3⟩ := yearOf_spec k
  split_ifs with h
  · rw [h1] at h
    rw [yearOf_unique (k := k + 1) (n := n) (j := (yearOf k).2 + 1) (by omega) h, h1]
  · rw [h1] at h
    have e : daysUpTo 1970 (n + 1) = daysUpTo 1970 n + yearDays (1970 + n) := rfl
    have hp := yearDays_ge (1970 + (n + 1))
    rw [yearOf_unique (k := k + 1) (n := n + 1) (j := 0) (by omega) (by omega), h1]
    rfl

theorem day_spec (k : Nat) : Day k (yearOf k).1 (monthOf k).1 (monthOf k).2 := by
  induction k with
  | zero => exact Day.first
  | succ k ih =>
    have hs := yearOf_succ k
    have hj : (yearOf k).2 < yearDays (yearOf k).1 := by
      obtain ⟨n, h1, h2, h3⟩ := yearOf_spec k
      rw [h1]; exact h3
    have e0 : monthOf k = monthFrom (monthDays (yearOf k).1) 1 (yearOf k).2 := rfl
    by_cases h : (yearOf k).2 + 1 < yearDays (yearOf k).1
    · rw [if_pos h] at hs
      have e1 : monthOf (k + 1) = monthFrom (monthDays (yearOf k).1) 1 ((yearOf k).2 + 1) := by unfold monthOf; rw [hs]
      have hpos : ∀ l ∈ monthDays (yearOf k).1, 0 < l := by
        unfold monthDays; intro l hl; simp only [List.mem_cons, List.not_mem_nil, or_false] at hl
        split_ifs at hl <;> omega
      obtain ⟨i, l, g1, g2, g3⟩ := monthFrom_succ (monthDays (yearOf k).1) 1 (yearOf k).2 hpos (by rw [monthDays_sum]; exact h)
      rw [← e0] at g1 g3
      rw [← e1] at g3
      have hd := monthDays_spec g2
      rw [← g1] at hd
      rcases g3 with ⟨a1, a2⟩ | ⟨a1, a2, a3⟩
      · rw [a2, hs, ← g1]
        exact Day.day ih hd a1
      · rw [a3, hs, ← g1]
        rw [← a1] at hd
        refine Day.month ih hd ?_
        rw [g1]
        have : (monthDays (yearOf k).1).length = 12 := rfl
        omega
    · rw [if_neg h] at hs
      have e1 : monthOf (k + 1) = (1, 1) := by
        unfold monthOf; rw [hs]; rfl
      have e2 : monthOf k = (12, 31) := by
        rw [e0, show (yearOf k).2 = yearDays (yearOf k).1 - 1 by omega]; exact monthFrom_last _
      rw [e2] at ih
      rw [e1, hs]
      exact Day.year ih

/-- `%W` counts the Mondays of the year so far. -/
theorem week_spec (k : Nat) : weekOf k = ((List.range ((yearOf k).2 + 1)).filter fun i => (k - (yearOf k).2 + i) % 7 = 4).length := by
  have hle : (yearOf k).2 ≤ k := by obtain ⟨n, _, h2, _⟩ := yearOf_spec k; omega
  unfold weekOf weekday
  generalize hj : (yearOf k).2 = j at hle ⊢
  obtain ⟨b, rfl⟩ : ∃ b, k = b + j := ⟨k - j, by omega⟩
  rw [Nat.add_sub_cancel]
  clear hj hle
  induction j with
  | zero =>
    by_cases h : b % 7 = 4
    · simp [h]; omega
    · simp [h]; omega
  | succ j ih =>
    rw [List.range_succ, List.filter_append, List.length_append, ← ih]
    by_cases h : (b + (j + 1)) % 7 = 4
    · simp [h]; omega
    · simp [h]; omega

end Flix
