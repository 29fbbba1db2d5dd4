import Verif.Spec.Aggregation
import Verif.Lemmas.SystemSem

/-! # The index pairs of `get_equation_indices` -/

namespace Flix

theorem idxOf_le {l : List Nat} {i k : Nat} (h : l[i]? = some k) : l.idxOf k ≤ i := by
  induction l generalizing i with
  | nil => simp at h
  | cons a l ih =>
    rw [List.idxOf_cons]
    by_cases ha : a = k
    · simp [ha]
    · cases i with
      | zero => simp at h; exact absurd h ha
      | succ i =>
        have := ih (i := i) (by simpa using h)
        simp [beq_eq_false_iff_ne.2 ha]
        exact this

theorem idxOf_get' {l : List Nat} {k : Nat} (h : k ∈ l) : l[l.idxOf k]? = some k := by
  have := List.idxOf_lt_length_of_mem h
  rw [List.getElem?_eq_getElem this, List.getElem_idxOf]

/-! ## `get_cluster_indices` -/

/-- The periods of a cluster, in order. -/
def periodsOf (order : List Nat) (k : Nat) : List (Nat × Nat) := (List.zip (List.range order.length) order).filter fun q => q.2 = k

theorem foldl_append {c : ClusterData} {keys : List Nat} : ∀ {l : List (Nat × Nat)} {g : Nat → List (List Nat)} {d : List (Nat × List (List Nat))},
    l.foldlM (fun d q => appendTo d q.2 (c.periodIndices q.1)) (keys.map fun k => (k, g k)) = .ok d ↔
    (∀ q ∈ l, q.2 ∈ keys) ∧ d = keys.map fun k => (k, g k ++ (l.filter fun q => q.2 = k).map fun q => c.periodIndices q.1)
  | [], g, d => by simp [eq_comm, pure, Except.pure]
  | q :: l, g, d => by
    rw [List.foldlM_cons]
    by_cases hq : q.2 ∈ keys
    · have e : appendTo (keys.map fun k => (k, g k)) q.2 (c.periodIndices q.1) =
          .ok (keys.map fun k => (k, (fun k => g k ++ if q.2 = k then [c.periodIndices q.1] else []) k)) := by
        unfold appendTo
        rw [if_pos (by simpa [Function.comp] using hq), List.map_map]
        congr 1
        apply List.map_congr_left
        intro k _
        by_cases hk : k = q.2
        · simp [hk]
        · simp [hk, Ne.symm hk]
      rw [e]
      simp only [bind, Except.bind]
      rw [foldl_append]
      simp only [List.forall_mem_cons, hq, true_and]
      refine and_congr_right fun _ => ?_
      have : (keys.map fun k => (k, (g k ++ if q.2 = k then [c.periodIndices q.1] else []) ++ (l.filter fun q => q.2 = k).map fun q => c.periodIndices q.1)) =
          keys.map fun k => (k, g k ++ ((q :: l).filter fun q => q.2 = k).map fun q => c.periodIndices q.1) := by
        apply List.map_congr_left
        intro k _
        by_cases hk : q.2 = k
        · simp [hk, List.filter_cons]
        · simp [hk, List.filter_cons]
      rw [this]
    · have e : appendTo (keys.map fun k => (k, g k)) q.2 (c.periodIndices q.1) = .error .key := by
        unfold appendTo
        rw [if_neg (by simpa [Function.comp] using hq)]
      rw [e]
      simp [bind, Except.bind, hq]

/-- What `get_cluster_indices` returns, and when. -/
theorem clusterIndices_ok {c : ClusterData} {d : List (Nat × List (List Nat))} :
    c.clusterIndices = .ok d ↔ (∀ k ∈ c.order, k ∈ c.keys) ∧ d = c.keys.map fun k => (k, (periodsOf c.order k).map fun q => c.periodIndices q.1) := by
  unfold ClusterData.clusterIndices
  rw [foldl_append (g := fun _ => [])]
  refine and_congr ?_ (by simp [periodsOf])
  constructor
  · intro h k hk
    obtain ⟨i, hi, e⟩ := List.mem_iff_getElem.1 hk
    have : (i, k) ∈ List.zip (List.range c.order.length) c.order := by
      rw [List.mem_iff_getElem?]
      refine ⟨i, ?_⟩
      rw [List.getElem?_zip_eq_some]
      exact ⟨by simp [hi], by rw [List.getElem?_eq_getElem hi, e]⟩
    exact h _ this
  · rintro h ⟨i, k⟩ hq
    exact h k (List.of_mem_zip hq).2

theorem mem_periodsOf {order : List Nat} {k : Nat} {q : Nat × Nat} : q ∈ periodsOf order k ↔ order[q.1]? = some k ∧ q.2 = k := by
  unfold periodsOf
  rw [List.mem_filter, List.mem_iff_getElem?]
  obtain ⟨p, k'⟩ := q
  simp only [decide_eq_true_eq, List.getElem?_zip_eq_some]
  constructor
  · rintro ⟨⟨i, h1, h2⟩, rfl⟩
    have : i = p := by
      by_cases hi : i < order.length
      · simp [hi] at h1; exact h1
      · simp [hi] at h1
    subst this
    exact ⟨h2, rfl⟩
  · rintro ⟨h, rfl⟩
    have hp : p < order.length := by
      by_contra hc
      rw [List.getElem?_eq_none (by omega)] at h
      simp at h
    exact ⟨⟨p, by simp [hp], h⟩, rfl⟩

theorem periodsOf_sorted (order : List Nat) (k : Nat) : (periodsOf order k).Pairwise fun a b => a.1 < b.1 := by
  unfold periodsOf
  apply List.Pairwise.filter
  rw [List.pairwise_iff_getElem]
  intro i j hi hj hij
  simp
  exact hij

theorem periodsOf_head {order : List Nat} {k : Nat} {f : Nat × Nat} {rest : List (Nat × Nat)} (h : periodsOf order k = f :: rest) :
    f = (order.idxOf k, k) ∧ order[order.idxOf k]? = some k ∧
    ∀ q : Nat × Nat, q ∈ rest ↔ (order[q.1]? = some k ∧ q.2 = k ∧ q.1 ≠ order.idxOf k) := by
  have hf : f ∈ periodsOf order k := by rw [h]; simp
  obtain ⟨f1, f2⟩ := mem_periodsOf.1 hf
  have hk : k ∈ order := List.mem_of_getElem? f1
  have hi := idxOf_get' hk
  have hs := periodsOf_sorted order k
  rw [h, List.pairwise_cons] at hs
  have hm : (order.idxOf k, k) ∈ periodsOf order k := mem_periodsOf.2 ⟨hi, rfl⟩
  have he : f = (order.idxOf k, k) := by
    rw [h, List.mem_cons] at hm
    rcases hm with hm | hm
    · exact hm.symm
    · have h1 := hs.1 _ hm
      have h2 := idxOf_le f1
      simp only at h1
      omega
  refine ⟨he, hi, fun q => ?_⟩
  constructor
  · intro hq
    obtain ⟨a, b⟩ := mem_periodsOf.1 (show q ∈ periodsOf order k by rw [h]; simp [hq])
    have := hs.1 q hq
    rw [he] at this
    simp only at this
    exact ⟨a, b, by omega⟩
  · rintro ⟨a, b, c⟩
    have : q ∈ periodsOf order k := mem_periodsOf.2 ⟨a, b⟩
    rw [h, List.mem_cons] at this
    rcases this with rfl | this
    · rw [he] at c; simp at c
    · exact this

/-! ## Positions -/

theorem periodIndices_get {c : ClusterData} {p j a : Nat} :
    (c.periodIndices p)[j]? = some a ↔ j < c.len ∧ p * c.len + j < c.total ∧ a = p * c.len + j := by
  unfold ClusterData.periodIndices
  have key : j < min (p * c.len + c.len) c.total - p * c.len ↔ j < c.len ∧ p * c.len + j < c.total := by
    rw [lt_tsub_iff_left, lt_min_iff]; omega
  by_cases hj : j < min (p * c.len + c.len) c.total - p * c.len
  · rw [List.getElem?_range' hj]
    rw [key] at hj
    constructor
    · intro h; simp at h; exact ⟨hj.1, hj.2, h.symm⟩
    · rintro ⟨_, _, rfl⟩; simp
  · rw [List.getElem?_eq_none (by simpa using hj)]
    rw [key] at hj
    constructor
    · simp
    · rintro ⟨h1, h2, _⟩; exact absurd ⟨h1, h2⟩ hj

theorem periodIndices_length {c : ClusterData} {p j : Nat} : j < (c.periodIndices p).length ↔ j < c.len ∧ p * c.len + j < c.total := by
  unfold ClusterData.periodIndices
  rw [List.length_range', lt_tsub_iff_left, lt_min_iff]; omega

/-! ## The pairs -/

theorem zip_flatten {α β} : ∀ (l : List (List α × List β)), (∀ q ∈ l, q.1.length = q.2.length) →
    List.zip (l.map Prod.fst).flatten (l.map Prod.snd).flatten = (l.map fun q => List.zip q.1 q.2).flatten ∧
    (l.map Prod.fst).flatten.length = (l.map Prod.snd).flatten.length
  | [], _ => by simp
  | q :: l, h => by
    obtain ⟨h1, h2⟩ := zip_flatten l fun q hq => h q (by simp [hq])
    have hq := h q (by simp)
    simp only [List.map_cons, List.flatten_cons, List.length_append, hq, h2, and_true]
    rw [List.zip_append hq, h1]

/-- All ties of a cluster with periods `ps` (lists of indices). -/
theorem clusterTies_length {skip : Bool} {vs : List (List Nat)} : ∀ q ∈ clusterTies skip vs, q.1.length = q.2.length := by
  intro q hq
  cases vs with
  | nil => simp [clusterTies] at hq
  | cons f os =>
    simp only [clusterTies, List.mem_map] at hq
    obtain ⟨o, _, rfl⟩ := hq
    simp

theorem mem_zip_take_drop {f o : List Nat} {a b : Nat} :
    (a, b) ∈ List.zip ((f.drop 1).take (min (f.drop 1).length (o.drop 1).length)) ((o.drop 1).take (min (f.drop 1).length (o.drop 1).length)) ↔
    ∃ j, 0 < j ∧ f[j]? = some a ∧ o[j]? = some b := by
  rw [List.mem_iff_getElem?]
  constructor
  · rintro ⟨i, hi⟩
    rw [List.getElem?_zip_eq_some] at hi
    simp only [List.getElem?_take, List.getElem?_drop] at hi
    obtain ⟨h1, h2⟩ := hi
    split at h1
    · rename_i hlt
      rw [if_pos hlt] at h2
      exact ⟨1 + i, by omega, h1, h2⟩
    · simp at h1
  · rintro ⟨j, hj, h1, h2⟩
    refine ⟨j - 1, ?_⟩
    have l1 : j < f.length := by
      by_contra hc; rw [List.getElem?_eq_none (by omega)] at h1; simp at h1
    have l2 : j < o.length := by
      by_contra hc; rw [List.getElem?_eq_none (by omega)] at h2; simp at h2
    have e : 1 + (j - 1) = j := by omega
    rw [List.getElem?_zip_eq_some]
    simp only [List.getElem?_take, List.getElem?_drop, e, h1, h2, List.length_drop]
    rw [if_pos (by omega)]
    simp
    omega

/-- The pairs of `get_equation_indices`: exactly the steps with a representative, each with its representative. -/
theorem mem_ties {c : ClusterData} {idx : List Nat × List Nat} (h : c.equationIndices true = .ok idx) :
    idx.1.length = idx.2.length ∧ ∀ a b, (a, b) ∈ List.zip idx.1 idx.2 ↔ b < c.total ∧ c.rep b = some a := by
  unfold ClusterData.equationIndices at h
  obtain ⟨d, hd, h⟩ := bind_ok.1 h
  simp only [except_pure, Except.ok.injEq] at h
  obtain ⟨hk, hd⟩ := clusterIndices_ok.1 hd
  have hl : ∀ q ∈ (d.map fun q => clusterTies true q.2).flatten, q.1.length = q.2.length := by
    intro q hq
    obtain ⟨l, hl, hq⟩ := List.mem_flatten.1 hq
    obtain ⟨e, _, rfl⟩ := List.mem_map.1 hl
    exact clusterTies_length q hq
  obtain ⟨hz, hlen⟩ := zip_flatten _ hl
  subst h
  refine ⟨hlen, fun a b => ?_⟩
  rw [hz]
  have hmem : (a, b) ∈ ((d.map fun q => clusterTies true q.2).flatten.map fun q => List.zip q.1 q.2).flatten ↔
      ∃ k ∈ c.keys, ∃ q ∈ clusterTies true ((periodsOf c.order k).map fun q => c.periodIndices q.1), (a, b) ∈ List.zip q.1 q.2 := by
    subst hd
    simp only [List.mem_flatten, List.mem_map, exists_exists_and_eq_and]
    constructor
    · rintro ⟨q, ⟨k, hk, hq⟩, hab⟩; exact ⟨k, hk, q, hq, hab⟩
    · rintro ⟨k, hk, q, hq, hab⟩; exact ⟨q, ⟨k, hk, hq⟩, hab⟩
  rw [hmem]
  constructor
  · rintro ⟨k, _, q, hq, hab⟩
    cases hp : periodsOf c.order k with
    | nil => simp [hp, clusterTies] at hq
    | cons f rest =>
      obtain ⟨hf, hi, hr⟩ := periodsOf_head hp
      simp only [hp, List.map_cons, clusterTies, skipFirst, if_true, List.map_map, List.mem_map] at hq
      obtain ⟨r, hrm, rfl⟩ := hq
      obtain ⟨j, hj, ha, hb⟩ := mem_zip_take_drop.1 hab
      obtain ⟨_, _, rfl⟩ := periodIndices_get.1 ha
      obtain ⟨hjl, hbt, rfl⟩ := periodIndices_get.1 hb
      obtain ⟨r1, _, r3⟩ := (hr r).1 hrm
      refine ⟨hbt, ?_⟩
      have d1 : (r.1 * c.len + j) / c.len = r.1 := by
        rw [mul_comm, Nat.mul_add_div (by omega), Nat.div_eq_of_lt hjl]; omega
      have d2 : (r.1 * c.len + j) % c.len = j := by
        rw [mul_comm, Nat.mul_add_mod, Nat.mod_eq_of_lt hjl]
      unfold ClusterData.rep
      rw [d1, d2, r1]
      simp only
      rw [if_neg (by omega), hf]
  · rintro ⟨hb, hrep⟩
    unfold ClusterData.rep at hrep
    split at hrep
    · simp at hrep
    · rename_i k hk'
      split at hrep
      · simp at hrep
      · rename_i hne
        rw [not_or] at hne
        simp only [Option.some.injEq] at hrep
        have hmk : k ∈ c.order := List.mem_of_getElem? hk'
        refine ⟨k, hk k hmk, ?_⟩
        cases hp : periodsOf c.order k with
        | nil =>
          have := mem_periodsOf.2 ⟨hk', (rfl : (b / c.len, k).2 = k)⟩
          rw [hp] at this; simp at this
        | cons f rest =>
          obtain ⟨hf, hi, hr⟩ := periodsOf_head hp
          have hm : (b / c.len, k) ∈ rest := (hr _).2 ⟨hk', rfl, fun e => hne.2 e.symm⟩
          simp only [List.map_cons, clusterTies, skipFirst, if_true, List.map_map, List.mem_map]
          refine ⟨_, ⟨_, hm, rfl⟩, ?_⟩
          have hlen0 : c.len ≠ 0 := by
            intro h0
            have := idxOf_le hk'
            rw [h0, Nat.div_zero] at this hne
            omega
          have hlt : b % c.len < c.len := Nat.mod_lt _ (by omega)
          have hdm : b / c.len * c.len + b % c.len = b := by rw [mul_comm]; exact Nat.div_add_mod b c.len
          have hle : c.order.idxOf k * c.len ≤ b / c.len * c.len := Nat.mul_le_mul_right _ (idxOf_le hk')
          refine mem_zip_take_drop.2 ⟨b % c.len, by omega, ?_, ?_⟩
          · rw [periodIndices_get, hf]
            exact ⟨hlt, by simp only; omega, hrep.symm⟩
          · simp only
            rw [periodIndices_get]
            exact ⟨hlt, by omega, hdm.symm⟩

/-- Every step with a representative occurs once. -/
theorem nodup_ties {c : ClusterData} (hkeys : c.keys.Nodup) {idx : List Nat × List Nat} (h : c.equationIndices true = .ok idx) : idx.2.Nodup := by
  unfold ClusterData.equationIndices at h
  obtain ⟨d, hd, h⟩ := bind_ok.1 h
  simp only [except_pure, Except.ok.injEq] at h
  obtain ⟨hk, hd⟩ := clusterIndices_ok.1 hd
  subst h
  have hR : ∀ k, ∀ r ∈ (periodsOf c.order k).tail, c.order[r.1]? = some k ∧ r.2 = k := fun k r hr => mem_periodsOf.1 (List.mem_of_mem_tail hr)
  have hnodup : (c.keys.flatMap fun k => (periodsOf c.order k).tail).Nodup := by
    rw [List.nodup_flatMap]
    refine ⟨fun k _ => ?_, ?_⟩
    · apply List.Nodup.sublist (List.tail_sublist _)
      exact (periodsOf_sorted c.order k).imp fun h e => by rw [e] at h; omega
    · apply hkeys.imp
      intro k k' hne r h1 h2
      exact hne ((hR k r h1).2.symm.trans (hR k' r h2).2)
  let g : Nat × Nat → List Nat := fun r =>
    ((c.periodIndices r.1).drop 1).take (min ((c.periodIndices (c.order.idxOf r.2)).drop 1).length ((c.periodIndices r.1).drop 1).length)
  have hs : ∀ r, (g r).Sublist (c.periodIndices r.1) := fun r => (List.take_sublist _ _).trans (List.drop_sublist _ _)
  have hdiv : ∀ r : Nat × Nat, ∀ b ∈ c.periodIndices r.1, b / c.len = r.1 := by
    intro r b hb
    obtain ⟨j, hj⟩ := List.mem_iff_getElem?.1 hb
    obtain ⟨hjl, _, rfl⟩ := periodIndices_get.1 hj
    rw [mul_comm, Nat.mul_add_div (by omega), Nat.div_eq_of_lt hjl]; omega
  have he : (((d.map fun q => clusterTies true q.2).flatten).map Prod.snd).flatten = (c.keys.flatMap fun k => (periodsOf c.order k).tail).flatMap g := by
    rw [hd, List.flatMap_assoc]
    rw [List.map_flatten, List.map_map, List.map_map, List.flatten_flatten, List.map_map, ← List.flatMap_def]
    congr 1
    funext k
    simp only [Function.comp]
    cases hp : periodsOf c.order k with
    | nil => simp [clusterTies]
    | cons f rest =>
      obtain ⟨hf, _, hr⟩ := periodsOf_head hp
      simp only [List.map_cons, clusterTies, List.map_map, List.tail_cons, List.flatMap_def]
      congr 1
      apply List.map_congr_left
      intro r hrm
      simp only [Function.comp, skipFirst, if_true, g, hf, ((hr r).1 hrm).2.1]
  simp only
  rw [he, List.nodup_flatMap]
  refine ⟨fun r _ => (hs r).nodup (by unfold ClusterData.periodIndices; exact List.nodup_range'), ?_⟩
  have hp := hnodup
  rw [List.Nodup, List.pairwise_iff_getElem] at hp
  rw [List.pairwise_iff_getElem]
  intro i j hi hj hij b h1 h2
  have e1 := hdiv _ b ((hs _).subset h1)
  have e2 := hdiv _ b ((hs _).subset h2)
  have hm : ∀ r ∈ c.keys.flatMap fun k => (periodsOf c.order k).tail, c.order[r.1]? = some r.2 := by
    intro r hr
    obtain ⟨k, _, hr⟩ := List.mem_flatMap.1 hr
    obtain ⟨a, b⟩ := hR k r hr
    rw [a, b]
  have m1 := hm _ (List.getElem_mem hi)
  have m2 := hm _ (List.getElem_mem hj)
  apply hp i j hi hj hij
  have ee := e1.symm.trans e2
  rw [ee, m2] at m1
  exact Prod.ext ee (by simpa using m1.symm)

/-- The number of ties is the number of steps with a representative. -/
theorem card_ties {c : ClusterData} (hkeys : c.keys.Nodup) {idx : List Nat × List Nat} (h : c.equationIndices true = .ok idx) :
    idx.1.length = c.copies.card := by
  obtain ⟨hl, hm⟩ := mem_ties h
  rw [hl, ← List.toFinset_card_of_nodup (nodup_ties hkeys h)]
  congr 1
  ext b
  simp only [List.mem_toFinset, ClusterData.copies, Finset.mem_filter, Finset.mem_range, Option.isSome_iff_exists]
  constructor
  · intro hb
    obtain ⟨i, hi, e⟩ := List.mem_iff_getElem.1 hb
    have hi1 : i < idx.1.length := by omega
    have : (idx.1[i], b) ∈ List.zip idx.1 idx.2 := by
      rw [List.mem_iff_getElem?]
      refine ⟨i, ?_⟩
      rw [List.getElem?_zip_eq_some]
      exact ⟨by rw [List.getElem?_eq_getElem hi1], by rw [List.getElem?_eq_getElem hi, e]⟩
    obtain ⟨h1, h2⟩ := (hm _ _).1 this
    exact ⟨h1, _, h2⟩
  · rintro ⟨hb, a, ha⟩
    exact (List.of_mem_zip ((hm a b).2 ⟨hb, ha⟩)).2

/-- Equality at the pairs is equality at all steps sharing a place. -/
theorem rep_iff_samePlace {c : ClusterData} (f : Nat → ℚ) :
    (∀ b < c.total, ∀ a, c.rep b = some a → f a = f b) ↔ ∀ a b, c.SamePlace a b → f a = f b := by
  constructor
  · intro h
    have key : ∀ p k j, c.order[p]? = some k → j < c.len → 0 < j → p * c.len + j < c.total → f (c.order.idxOf k * c.len + j) = f (p * c.len + j) := by
      intro p k j hp hj hj0 ht
      by_cases he : c.order.idxOf k = p
      · rw [he]
      · apply h _ ht
        have d1 : (p * c.len + j) / c.len = p := by
          rw [mul_comm, Nat.mul_add_div (by omega), Nat.div_eq_of_lt hj]; omega
        have d2 : (p * c.len + j) % c.len = j := by
          rw [mul_comm, Nat.mul_add_mod, Nat.mod_eq_of_lt hj]
        unfold ClusterData.rep
        rw [d1, d2, hp]
        simp only
        rw [if_neg (by omega)]
    rintro a b ⟨p, q, k, j, hp, hq, hj, hj0, rfl, rfl, ha, hb⟩
    rw [← key p k j hp hj hj0 ha, ← key q k j hq hj hj0 hb]
  · intro h b hb a ha
    apply h
    unfold ClusterData.rep at ha
    split at ha
    · simp at ha
    · rename_i k hk
      split at ha
      · simp at ha
      · rename_i hne
        rw [not_or] at hne
        simp only [Option.some.injEq] at ha
        have hlen0 : c.len ≠ 0 := by
          intro h0
          have := idxOf_le hk
          rw [h0, Nat.div_zero] at this hne
          omega
        have hle : c.order.idxOf k * c.len ≤ b / c.len * c.len := Nat.mul_le_mul_right _ (idxOf_le hk)
        have hdm : b / c.len * c.len + b % c.len = b := by rw [mul_comm]; exact Nat.div_add_mod b c.len
        exact ⟨c.order.idxOf k, b / c.len, k, b % c.len, idxOf_get' (List.mem_of_getElem? hk), hk, Nat.mod_lt _ (by omega), by omega,
          ha.symm, hdm.symm, by omega, hb⟩

end Flix
