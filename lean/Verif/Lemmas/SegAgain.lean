import Verif.Lemmas.SegResults

/-! # Running a segmented calculation again: what is recorded -/

namespace Flix

theorem lookup_setEntry {α} {d : List (String × α)} {k j : String} {v : α} :
    (setEntry d k v).lookup j = if j = k then some v else d.lookup j := by
  unfold setEntry
  by_cases hany : d.any (fun q => q.1 == k) = true
  · rw [if_pos hany]
    induction d with
    | nil => simp at hany
    | cons q d ih =>
      obtain ⟨k', v'⟩ := q
      rw [List.map_cons]
      simp only [List.any_cons, Bool.or_eq_true, beq_iff_eq] at hany
      by_cases hq : k' = k
      · subst hq
        simp only [beq_self_eq_true, if_true]
        rw [List.lookup_cons, List.lookup_cons]
        by_cases hj : j = k'
        · simp [hj]
        · rw [if_neg hj, show (j == k') = false by simpa using hj]
          simp only
          by_cases hd : d.any (fun q => q.1 == k') = true
          · have := ih hd
            rw [if_neg hj] at this
            exact this
          · congr 1
            have : ∀ q ∈ d, (if (q.1 == k') = true then (k', v) else q) = q := by
              intro q hq
              rw [if_neg]
              intro hc
              exact hd (List.any_eq_true.2 ⟨q, hq, hc⟩)
            conv_rhs => rw [← List.map_id d]
            exact List.map_congr_left this
      · rw [if_neg (by simpa using hq), List.lookup_cons, List.lookup_cons]
        have hd : d.any (fun q => q.1 == k) = true := by
          rcases hany with h | h
          · exact absurd h hq
          · exact h
        by_cases hj : j = k'
        · subst hj
          simp [hq]
        · rw [show (j == k') = false by simpa using hj]
          exact ih hd
  · rw [if_neg hany, List.lookup_append]
    by_cases hj : j = k
    · subst hj
      have : d.lookup j = none := by
        rw [List.lookup_eq_none_iff]
        intro q hq
        simp only [bne_iff_ne, ne_eq]
        intro hc
        exact hany (List.any_eq_true.2 ⟨q, hq, by simp [hc]⟩)
      simp [this]
    · have hjb : (j == k) = false := by simpa using hj
      simp [hj, hjb, List.lookup_cons]

theorem keys_setEntry {α} {d : List (String × α)} {k : String} {v : α} :
    (setEntry d k v).map Prod.fst = if k ∈ d.map Prod.fst then d.map Prod.fst else d.map Prod.fst ++ [k] := by
  unfold setEntry
  by_cases hm : k ∈ d.map Prod.fst
  · rw [if_pos hm, if_pos]
    · rw [List.map_map]
      apply List.map_congr_left
      intro q _
      simp only [Function.comp]
      by_cases hq : q.1 = k
      · simp [hq]
      · simp [hq]
    · obtain ⟨q, hq, he⟩ := List.mem_map.1 hm
      exact List.any_eq_true.2 ⟨q, hq, by simp [he]⟩
  · rw [if_neg hm, if_neg]
    · simp
    · intro hc
      obtain ⟨q, hq, he⟩ := List.any_eq_true.1 hc
      exact hm (List.mem_map.2 ⟨q, hq, by simpa using he⟩)

theorem nodup_setEntry {α} {d : List (String × α)} {k : String} {v : α} (h : (d.map Prod.fst).Nodup) : ((setEntry d k v).map Prod.fst).Nodup := by
  rw [keys_setEntry]
  by_cases hm : k ∈ d.map Prod.fst
  · rw [if_pos hm]; exact h
  · rw [if_neg hm, List.nodup_append]
    refine ⟨h, by simp, ?_⟩
    intro a ha b hb he
    simp only [List.mem_singleton] at hb
    subst hb
    subst he
    exact hm ha

theorem lookup_foldl_setEntry {α} : ∀ {l d : List (String × α)} {j : String}, (l.map Prod.fst).Nodup →
    (l.foldl (fun d q => setEntry d q.1 q.2) d).lookup j = (l.lookup j).or (d.lookup j) := by
  intro l
  induction l with
  | nil => intro d j _; simp
  | cons q l ih =>
    intro d j h
    obtain ⟨k, v⟩ := q
    rw [List.map_cons, List.nodup_cons] at h
    rw [List.foldl_cons, ih h.2, lookup_setEntry, List.lookup_cons]
    by_cases hj : j = k
    · subst hj
      have : l.lookup j = none := by
        rw [List.lookup_eq_none_iff]
        intro q hq
        simp only [bne_iff_ne, ne_eq]
        intro hc
        exact h.1 (List.mem_map.2 ⟨q, hq, hc.symm⟩)
      simp [this]
    · rw [if_neg hj, show (j == k) = false by simpa using hj]

/-- Entering a segment of a calculation with sub calculations: the values are recorded. -/
theorem SegCalc.enter_again {c : SegCalc} {i : Nat} {s s1 : SegState} (hs : s.subs ≠ []) (h : c.enter i s = (s1, none)) :
    s1.subs = s.subs ∧ s1.given = setEntry s.given (segName i) (s1.flows, s1.stores) := by
  have g := (c.enter_given (i := i) (s := s)).2.2
  have f := (c.enter_frame i s).1
  rw [h] at g f
  exact ⟨f, g rfl hs⟩

/-- A loop that returns keeps other names and the keys distinct, and appends one sub calculation per segment. -/
theorem SegCalc.loop_again {c : SegCalc} {solver : SegSolver} (m : Nat) : ∀ {i : Nat} {s s2 : SegState}, s.subs ≠ [] →
    (s.given.map Prod.fst).Nodup → c.loop solver m i s = (s2, none) →
    (s2.given.map Prod.fst).Nodup ∧ (∃ new, s2.subs = s.subs ++ new ∧ new.length = m ∧
      (∀ k a, new[k]? = some a → a.idx = c.indices (i + k) ∧ s2.given.lookup (segName (i + k)) = some (a.flows, a.stores))) ∧
      ∀ j, (j < i ∨ i + m ≤ j) → s2.given.lookup (segName j) = s.given.lookup (segName j) := by
  induction m with
  | zero =>
    intro i s s2 _ hn h
    simp only [SegCalc.loop, Prod.mk.injEq, and_true] at h
    subst h
    exact ⟨hn, ⟨[], by simp, rfl, by intro k a h; simp at h⟩, fun _ _ => rfl⟩
  | succ m ih =>
    intro i s s2 hs hn h
    unfold SegCalc.loop at h
    rcases he : c.enter i s with ⟨s1, e⟩
    rw [he] at h
    cases e with
    | some e => simp at h
    | none =>
      simp only at h
      obtain ⟨f1, f2⟩ := c.enter_again hs he
      rcases hv : c.solveSeg solver i s1 with ⟨s3, e⟩
      rw [hv] at h
      cases e with
      | some e => simp at h
      | none =>
        simp only at h
        have h3 : s3 = (c.solveSeg solver i s1).1 := by rw [hv]
        have hsub3 : s3.subs = s.subs ++ [{ idx := c.indices i, flows := s1.flows, stores := s1.stores, res := (solver i (c.indices i) s1.flows s1.stores).2 }] := by
          rw [h3]; simp [SegCalc.solveSeg, f1]
        have hgiv3 : s3.given = s1.given := by rw [h3]; rfl
        obtain ⟨n1, ⟨new, e1, e2, e3⟩, n3⟩ := ih (i := i + 1) (s := s3) (s2 := s2) (by rw [hsub3]; simp) (by rw [hgiv3, f2]; exact nodup_setEntry hn) h
        refine ⟨n1, ⟨_ :: new, by rw [e1, hsub3, List.append_assoc]; rfl, by simp [e2], ?_⟩, ?_⟩
        · intro k a ha
          cases k with
          | zero =>
            simp only [List.getElem?_cons_zero, Option.some.injEq] at ha
            subst ha
            refine ⟨rfl, ?_⟩
            rw [Nat.add_zero, n3 i (by omega), hgiv3, f2, lookup_setEntry, if_pos rfl]
          | succ k =>
            rw [List.getElem?_cons_succ] at ha
            have := e3 k a ha
            rw [show i + 1 + k = i + (k + 1) by omega] at this
            exact this
        · intro j hj
          rw [n3 j (by omega), hgiv3, f2, lookup_setEntry, if_neg]
          intro hc
          have := segName_inj hc
          omega

end Flix
