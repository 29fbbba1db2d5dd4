import Verif.Props.Labels
import Verif.Lemmas.Assign
import Verif.Spec.Named

/-!
# Labels put together from labels
-/

namespace Flix

/-- The label of an element, or the full label of a flow. -/
def IsFull (s : String) : Prop := IsName s ∨ ∃ c f, IsName c ∧ IsName f ∧ s = c ++ "__" ++ f

theorem IsName.good {s : String} (h : IsName s) : GoodLabel s.toList := (labelIsValid_iff s).1 h.valid

theorem IsName.toList_ne {s : String} (h : IsName s) : s.toList ≠ [] := fun h' => h.ne (String.toList_inj.1 (by rw [h']; rfl))

theorem good_reverse {l : List Char} (h : GoodLabel l) : GoodLabel l.reverse := by
  refine ⟨fun r hr => ?_, fun r hr => ?_, fun r s hr => ?_⟩
  · have := congrArg List.reverse hr
    simp at this
    exact h.last _ this
  · have := congrArg List.reverse hr
    simp at this
    exact h.first _ this
  · have := congrArg List.reverse hr
    simp at this
    exact h.inner s.reverse r.reverse (by rw [this])

/-- The last piece of a label is unique, too. -/
theorem split_last {a a' x x' : String} (hx : labelIsValid x = true) (hx' : labelIsValid x' = true) (h : a ++ "__" ++ x = a' ++ "__" ++ x') :
    a = a' ∧ x = x' := by
  have h' := congrArg List.reverse (congrArg String.toList h)
  simp only [String.toList_append, List.reverse_append] at h'
  rw [show ("__" : String).toList.reverse = ['_', '_'] by decide +kernel] at h'
  obtain ⟨h1, h2⟩ := good_split (good_reverse ((labelIsValid_iff x).1 hx)) (good_reverse ((labelIsValid_iff x').1 hx')) h'
  exact ⟨String.toList_inj.1 (List.reverse_inj.1 h2), String.toList_inj.1 (List.reverse_inj.1 h1)⟩

theorem good_mid {p q : List Char} (hp : GoodLabel p) (hq : GoodLabel q) (hp0 : p ≠ []) (hq0 : q ≠ []) : GoodLabel (p ++ '_' :: q) := by
  refine ⟨fun r hr => ?_, fun r hr => ?_, fun r s hr => ?_⟩
  · cases p with
    | nil => exact hp0 rfl
    | cons a p => simp at hr; exact hp.first p (by rw [hr.1])
  · rcases List.eq_nil_or_concat q with rfl | ⟨q', a, rfl⟩
    · exact hq0 rfl
    · have : p ++ '_' :: (q' ++ [a]) = (p ++ '_' :: q') ++ [a] := by simp
      rw [List.concat_eq_append, this] at hr
      have := List.append_inj' hr rfl
      simp at this
      exact hq.last q' (by rw [List.concat_eq_append, this.2])
  · rcases List.append_eq_append_iff.1 hr with ⟨c, h1, h2⟩ | ⟨c, h1, h2⟩
    · cases c with
      | nil =>
        simp at h2
        cases q with
        | nil => exact hq0 rfl
        | cons a q => simp at h2; exact hq.first q (by rw [h2.1])
      | cons x c =>
        simp at h2
        exact hq.inner c s h2.2
    · cases c with
      | nil =>
        simp at h2
        cases q with
        | nil => exact hq0 rfl
        | cons a q => simp at h2; exact hq.first q (by rw [← h2.1])
      | cons x c =>
        cases c with
        | nil =>
          simp at h2
          exact hp.last r (by rw [h1, h2.1])
        | cons y c =>
          simp at h2
          exact hp.inner r c (by rw [h1, ← h2.1, ← h2.2.1])

/-- Two names with an underscore in between are a name. -/
theorem name_mid {p q : String} (hp : IsName p) (hq : IsName q) : IsName (p ++ "_" ++ q) := by
  constructor
  · rw [labelIsValid_iff]
    have : (p ++ "_" ++ q).toList = p.toList ++ '_' :: q.toList := by
      simp only [String.toList_append]
      rw [show ("_" : String).toList = ['_'] by decide +kernel]
      simp
    rw [this]
    exact good_mid hp.good hq.good hp.toList_ne hq.toList_ne
  · intro h
    have := congrArg String.toList h
    simp only [String.toList_append] at this
    rw [show ("_" : String).toList = ['_'] by decide +kernel] at this
    simp at this

theorem toList_nat (i : Nat) : (toString i).toList = Nat.toDigits 10 i := by
  rw [Nat.toString_eq_repr, Nat.toList_repr]

theorem isDigit_nat {i : Nat} {c : Char} (h : c ∈ (toString i).toList) : c.isDigit = true := by
  rw [toList_nat] at h
  exact Nat.isDigit_of_mem_toDigits (by decide) (by decide) h

/-- A number is a name. -/
theorem name_nat (i : Nat) : IsName (toString i) := by
  have hd : '_' ∉ (toString i).toList := fun h => absurd (isDigit_nat h) (by decide)
  constructor
  · rw [labelIsValid_iff]
    refine ⟨fun r hr => ?_, fun r hr => ?_, fun r s hr => ?_⟩ <;> rw [hr] at hd <;> simp at hd
  · intro h
    have := congrArg String.toList h
    rw [toList_nat] at this
    exact absurd this (by simp)

/-- A full label does not end with an underscore. -/
theorem full_last {el : String} (h : IsFull el) (x : String) : x ++ "_" ≠ el := by
  have key : ∀ {a b : String}, IsName b → x ++ "_" ≠ a ++ b := by
    intro a b hb he
    have h' := congrArg String.toList he
    simp only [String.toList_append] at h'
    rw [show ("_" : String).toList = ['_'] by decide +kernel] at h'
    rcases List.eq_nil_or_concat b.toList with h0 | ⟨q, c, h0⟩
    · exact hb.toList_ne h0
    · rw [h0, List.concat_eq_append, ← List.append_assoc] at h'
      have := (List.append_inj' h' rfl).2
      simp at this
      exact hb.good.last q (by rw [h0, List.concat_eq_append, this])
  rcases h with h | ⟨c, f, _, hf, rfl⟩
  · have := key (a := "") h
    simpa using this
  · exact key hf

/-- Texts none of which is the end of another one. -/
def Apart (S : List String) : Prop := ∀ s ∈ S, ∀ t ∈ S, s.toList <:+ t.toList → s = t

instance (S : List String) : Decidable (Apart S) := by unfold Apart; infer_instance

theorem apart_eq {S : List String} (hS : Apart S) {a b s t : String} (hs : s ∈ S) (ht : t ∈ S) (h : a ++ s = b ++ t) : s = t ∧ a = b := by
  have h' := congrArg String.toList h
  simp only [String.toList_append] at h'
  have hst : s = t := by
    rcases List.append_eq_append_iff.1 h' with ⟨c, _, h2⟩ | ⟨c, _, h2⟩
    · exact (hS t ht s hs ⟨c, h2.symm⟩).symm
    · exact hS s hs t ht ⟨c, h2.symm⟩
  subst hst
  exact ⟨rfl, append_left_inj'.1 h⟩

/-- The same text before and after something: the texts are equal. -/
theorem twice_inj {a b m : String} (h : a ++ m ++ a = b ++ m ++ b) : a = b := by
  have h' := congrArg String.toList h
  have hl := congrArg List.length h'
  simp only [String.toList_append, List.length_append] at h' hl
  have := (List.append_inj' h' (by omega)).2
  exact String.toList_inj.1 this

/-- … and so is what is between them, if it is equally long (or if not: by parity). -/
theorem twice_mid {a b m n : String} (hmn : m.toList.length = n.toList.length ∨ (m.toList.length + n.toList.length) % 2 = 1)
    (h : a ++ m ++ a = b ++ n ++ b) : a = b ∧ m = n := by
  have h' := congrArg String.toList h
  have hl := congrArg List.length h'
  simp only [String.toList_append, List.length_append] at h' hl
  have e := List.append_inj' h' (by omega)
  have e1 := String.toList_inj.1 e.2
  refine ⟨e1, ?_⟩
  subst e1
  have := e.1
  simp at this
  exact String.toList_inj.1 this

/-! ## Labels of variables -/

/-- What a variable of an element is. -/
inductive VT
  | plain (suf : String)
  | seg (e : String)
  | segm (i : Nat) (suf : String)
  | share (src suf : String)
  | other (o suf : String)
  | total (suf : String)
  | pen (b suf : String)
  deriving DecidableEq

/-- Its label. -/
def VT.pre (el : String) : VT → String
  | .plain _ => el
  | .seg e => el ++ "__" ++ ("SegmentedShares" ++ "_" ++ e)
  | .segm i _ => el ++ "__" ++ ("Segment" ++ "_" ++ toString i)
  | .share src _ => el ++ "__" ++ src
  | .other o _ => el ++ "__" ++ o
  | .total _ => el ++ "_"
  | .pen b _ => el ++ "__" ++ b ++ "_"

def VT.suf : VT → String
  | .plain s => s
  | .seg _ => "_segmented"
  | .segm _ s => s
  | .share _ s => s
  | .other _ s => s
  | .total s => s
  | .pen _ s => s

def vlabel (k : String × VT) : String := k.2.pre k.1 ++ k.2.suf

def onVarSufs : List String := ["__OnOff_on", "__OnOff_totalOnHours", "__OnOff_off", "__OnOff_consecutiveOnHours", "__OnOff_consecutiveOffHours",
  "__OnOff_switchOn", "__OnOff_switchOff", "__OnOff_nrSwitchOn"]
def plainVarSufs : List String := ["_flow_rate", "_sumFlowHours"] ++ onVarSufs ++ ["__Investment_size", "__Investment_isInvested", "_charge_state",
  "_netto_discharge", "_excess_input", "_excess_output", "__operation_operation_sum", "__operation_operation_sum_TS", "__invest_invest_sum", "__all_all_sum",
  "__penalty_penalty_sum"]
def segmSufs : List String := ["_inSegment", "_lambda0", "_lambda1"]
def opShareSufs : List String := ["__switch_on_effects", "__running_hour_effects", "__effects_per_flow_hour"]
def invShareSufs : List String := ["__fix_effects", "__divest_effects", "__divest_cancellation_effects", "__specific_effects", "__segmented_effects"]
def shareSufs : List String := opShareSufs ++ invShareSufs
def partSufs : List String := ["_operation", "_invest"]
def excessSufs : List String := ["_excess_input", "_excess_output"]

/-- The keys that occur. -/
def VT.Occurs (el : String) : VT → Prop
  | .plain s => IsFull el ∧ s ∈ plainVarSufs
  | .seg e => IsFull el ∧ IsName e
  | .segm _ s => IsFull el ∧ s ∈ segmSufs
  | .share src s => IsName el ∧ IsFull src ∧ s ∈ shareSufs
  | .other o s => IsName el ∧ IsName o ∧ s ∈ partSufs
  | .total s => IsName el ∧ s ∈ partSufs
  | .pen b s => IsName el ∧ IsName b ∧ s ∈ excessSufs

def allVarSufs : List String := plainVarSufs ++ ["_segmented"] ++ segmSufs ++ shareSufs ++ partSufs

theorem allVarSufs_apart : Apart allVarSufs := by decide +kernel

theorem VT.Occurs.suf_mem {el : String} {t : VT} (h : t.Occurs el) : t.suf ∈ allVarSufs := by
  unfold allVarSufs
  cases t with
  | plain s => exact List.mem_append_left _ (List.mem_append_left _ (List.mem_append_left _ (List.mem_append_left _ h.2)))
  | seg e => exact List.mem_append_left _ (List.mem_append_left _ (List.mem_append_left _ (List.mem_append_right _ (List.mem_singleton.2 rfl))))
  | segm i s => exact List.mem_append_left _ (List.mem_append_left _ (List.mem_append_right _ h.2))
  | share src s => exact List.mem_append_left _ (List.mem_append_right _ h.2.2)
  | other o s => exact List.mem_append_right _ h.2.2
  | total s => exact List.mem_append_right _ h.2
  | pen b s =>
    refine List.mem_append_left _ (List.mem_append_left _ (List.mem_append_left _ (List.mem_append_left _ ?_)))
    have : ∀ s ∈ excessSufs, s ∈ plainVarSufs := by decide +kernel
    exact this s h.2.2

/-- The kind of a key. -/
def VT.kind : VT → Nat
  | .plain _ => 0
  | .seg _ => 1
  | .segm _ _ => 2
  | .share _ _ => 3
  | .other _ _ => 4
  | .total _ => 5
  | .pen _ _ => 6

/-- Which kinds have a given ending. -/
def sufKinds (s : String) : List Nat :=
  (if s ∈ plainVarSufs then [0] else []) ++ (if s = "_segmented" then [1] else []) ++ (if s ∈ segmSufs then [2] else []) ++
  (if s ∈ shareSufs then [3] else []) ++ (if s ∈ partSufs then [4, 5] else []) ++ (if s ∈ excessSufs then [6] else [])

theorem VT.Occurs.kind_mem {el : String} {t : VT} (h : t.Occurs el) : t.kind ∈ sufKinds t.suf := by
  unfold sufKinds
  cases t with
  | plain s => simp [VT.kind, VT.suf, h.2]
  | seg e => simp [VT.kind, VT.suf]
  | segm i s => simp [VT.kind, VT.suf, h.2]
  | share src s => simp [VT.kind, VT.suf, h.2.2]
  | other o s => simp [VT.kind, VT.suf, h.2.2]
  | total s => simp [VT.kind, VT.suf, h.2]
  | pen b s => simp [VT.kind, VT.suf, h.2.2]

theorem kinds_apart : ∀ s ∈ allVarSufs, ∀ i ∈ sufKinds s, ∀ j ∈ sufKinds s, i = j ∨ (i = 4 ∧ j = 5) ∨ (i = 5 ∧ j = 4) ∨ (i = 0 ∧ j = 6) ∨ (i = 6 ∧ j = 0) := by
  decide +kernel

theorem full_append_us {el : String} : IsFull el → ∀ x : String, el ≠ x ++ "_" := fun h x he => full_last h x he.symm

theorem segShares_valid {e : String} (h : IsName e) : labelIsValid ("SegmentedShares" ++ "_" ++ e) = true :=
  (name_mid ⟨by decide +kernel, by decide⟩ h).valid
theorem segment_valid (i : Nat) : labelIsValid ("Segment" ++ "_" ++ toString i) = true :=
  (name_mid ⟨by decide +kernel, by decide⟩ (name_nat i)).valid

/-- Different variables have different labels. -/
theorem vlabel_inj {k k' : String × VT} (h : k.2.Occurs k.1) (h' : k'.2.Occurs k'.1) (he : vlabel k = vlabel k') : k = k' := by
  obtain ⟨el, t⟩ := k
  obtain ⟨el', t'⟩ := k'
  simp only at h h'
  obtain ⟨hs, hp⟩ := apart_eq allVarSufs_apart h.suf_mem h'.suf_mem he
  simp only at hs hp
  have hk := kinds_apart t.suf h.suf_mem t.kind h.kind_mem t'.kind (by rw [hs]; exact h'.kind_mem)
  cases t <;> cases t' <;> simp only [VT.kind] at hk <;> try omega
  · simp only [VT.pre, VT.suf] at hs hp; rw [hs, hp]
  · rename_i s b s'
    exact absurd hp.symm (full_last h.1 _)
  · rename_i e e'
    obtain ⟨h1, h2⟩ := split_last (segShares_valid h.2) (segShares_valid h'.2) hp
    have h2 := congrArg String.toList h2
    simp only [String.toList_append, List.append_cancel_left_eq] at h2
    rw [h1, String.toList_inj.1 h2]
  · rename_i i s i' s'
    obtain ⟨h1, h2⟩ := split_last (segment_valid i) (segment_valid i') hp
    have h2 := congrArg String.toList h2
    simp only [String.toList_append, List.append_cancel_left_eq] at h2
    simp only [VT.suf] at hs
    rw [h1, toString_nat_inj (String.toList_inj.1 h2), hs]
  · obtain ⟨h1, h2⟩ := C54 h.1.valid h'.1.valid hp
    simp only [VT.suf] at hs
    rw [h1, h2, hs]
  · obtain ⟨h1, h2⟩ := C54 h.1.valid h'.1.valid hp
    simp only [VT.suf] at hs
    rw [h1, h2, hs]
  · rename_i o s s'
    exact absurd hp.symm (full_last (Or.inr ⟨_, _, h.1, h.2.1, rfl⟩) _)
  · rename_i s o s'
    exact absurd hp (full_last (Or.inr ⟨_, _, h'.1, h'.2.1, rfl⟩) _)
  · simp only [VT.pre, VT.suf] at hs hp
    rw [hs, append_left_inj'.1 hp]
  · rename_i b s s'
    exact absurd hp (full_last h'.1 _)
  · simp only [VT.pre, VT.suf] at hs hp
    obtain ⟨h1, h2⟩ := C54 h.1.valid h'.1.valid (append_left_inj'.1 hp)
    rw [h1, h2, hs]

/-! ## Labels of constraints -/

/-- What a constraint of an element is. -/
inductive CT
  | plain (suf : String)
  | twice (mid suf : String)
  | lam (f : String)
  | segLam (e : String)
  | segm (i : Nat)
  | init
  | conv (i : Nat)
  | share (t : VT)
  deriving DecidableEq

def CT.pre (el : String) : CT → String
  | .plain _ => el
  | .twice m _ => el ++ m ++ el
  | .lam f => el ++ "__MultipleSegments_lambda_" ++ (el ++ "__" ++ f)
  | .segLam e => el ++ "__MultipleSegments_lambda_" ++ el ++ "__" ++ ("SegmentedShares" ++ "_" ++ e)
  | .segm i => el ++ "__" ++ ("Segment" ++ "_" ++ toString i)
  | .init => el ++ "_initial"
  | .conv _ => el ++ "_conversion_"
  | .share t => vlabel (el, t) ++ "_" ++ t.pre el

def CT.suf : CT → String
  | .plain s => s
  | .twice _ s => s
  | .lam _ => "_flow_rate"
  | .segLam _ => "_segmented"
  | .segm _ => "_inSegment"
  | .init => "_charge_state"
  | .conv i => toString i
  | .share t => t.suf

def clabel (k : String × CT) : String := k.2.pre k.1 ++ k.2.suf

def onConSufs : List String := ["__OnOff_totalOnHours", "__OnOff_On_Constraint_1", "__OnOff_On_Constraint_2", "__OnOff_var_off", "__OnOff_Switch",
  "__OnOff_Initial_Switch", "__OnOff_Switch_On_or_Off", "__OnOff_NrSwitchOn"]
def plainConSufs : List String := ["_sumFlowHours", "_load_factor_max", "_load_factor_min"] ++ onConSufs ++
  ["__Investment_is_invested", "__Investment_is_invested_ub", "__Investment_is_invested_lb", "_charge_state", "__MultipleSegments_in_single_Segment",
   "__PreventSimultaneousUsage_prevent_simultaneous_use", "_direction_1", "_direction_2", "_equal_size_in_both_directions", "_netto_discharge",
   "_eq_final_charge_state_max", "_eq_charge_state_end_min", "_busBalance", "__operation_operation_sum", "__operation_operation_time_series",
   "__invest_invest_sum", "__all_all_sum", "__penalty_penalty_sum"]
def durOnSufs : List String := ["__OnOff_consecutiveOnHours_constraint_1", "__OnOff_consecutiveOnHours_constraint_2a", "__OnOff_consecutiveOnHours_constraint_2b",
  "__OnOff_consecutiveOnHours_minimum_duration", "__OnOff_consecutiveOnHours_minimum_duration_inital", "__OnOff_consecutiveOnHours_initial"]
def durOffSufs : List String := ["__OnOff_consecutiveOffHours_constraint_1", "__OnOff_consecutiveOffHours_constraint_2a",
  "__OnOff_consecutiveOffHours_constraint_2b", "__OnOff_consecutiveOffHours_minimum_duration", "__OnOff_consecutiveOffHours_minimum_duration_inital",
  "__OnOff_consecutiveOffHours_initial"]
def invMids : List String := ["__Investment_ub_", "__Investment_lb_", "__Investment_fixed_"]

/-- The keys that occur. -/
def CT.Occurs (el : String) : CT → Prop
  | .plain s => IsFull el ∧ s ∈ plainConSufs ∧ (s = "_charge_state" → IsName el)
  | .twice m s => IsFull el ∧ ((m = "__OnOff_" ∧ s ∈ durOnSufs ++ durOffSufs) ∨ (m ∈ invMids ∧ s = "_flow_rate" ∧ ∃ c f, IsName c ∧ IsName f ∧ el = c ++ "__" ++ f) ∨
      (m ∈ invMids ∧ s = "_charge_state") ∨ (m = "__MultipleSegments_lambda_" ∧ s = "__Investment_size"))
  | .lam f => IsName el ∧ IsName f
  | .segLam e => IsFull el ∧ IsName e
  | .segm _ => IsFull el
  | .init => IsName el
  | .conv _ => True
  | .share t => t.Occurs el ∧ t.kind ∈ [3, 4, 5, 6]

def allConSufs : List String := plainConSufs ++ (durOnSufs ++ durOffSufs) ++ ["_flow_rate", "__Investment_size", "_segmented", "_inSegment"] ++
  (shareSufs ++ partSufs ++ excessSufs)

theorem allConSufs_apart : Apart allConSufs := by decide +kernel

def CT.kind : CT → Nat
  | .plain _ => 0
  | .twice _ _ => 1
  | .lam _ => 2
  | .segLam _ => 3
  | .segm _ => 4
  | .init => 5
  | .share _ => 6
  | .conv _ => 7

def conSufKinds (s : String) : List Nat :=
  (if s ∈ plainConSufs then [0] else []) ++
  (if s ∈ (durOnSufs ++ durOffSufs) ++ ["_flow_rate", "_charge_state", "__Investment_size"] then [1] else []) ++
  (if s = "_flow_rate" then [2] else []) ++ (if s = "_segmented" then [3] else []) ++ (if s = "_inSegment" then [4] else []) ++
  (if s = "_charge_state" then [5] else []) ++ (if s ∈ shareSufs ++ partSufs ++ excessSufs then [6] else [])

theorem VT.Occurs.share_suf {el : String} {t : VT} (h : t.Occurs el) (hk : t.kind ∈ [3, 4, 5, 6]) : t.suf ∈ shareSufs ++ partSufs ++ excessSufs := by
  cases t with
  | plain s => simp [VT.kind] at hk
  | seg e => simp [VT.kind] at hk
  | segm i s => simp [VT.kind] at hk
  | share src s => exact List.mem_append_left _ (List.mem_append_left _ h.2.2)
  | other o s => exact List.mem_append_left _ (List.mem_append_right _ h.2.2)
  | total s => exact List.mem_append_left _ (List.mem_append_right _ h.2)
  | pen b s => exact List.mem_append_right _ h.2.2

theorem CT.Occurs.suf_mem {el : String} {t : CT} (h : t.Occurs el) (hk : t.kind ≠ 7) : t.suf ∈ allConSufs := by
  unfold allConSufs
  cases t with
  | plain s => exact List.mem_append_left _ (List.mem_append_left _ (List.mem_append_left _ h.2.1))
  | twice m s =>
    rcases h.2 with h | h | h | h
    · exact List.mem_append_left _ (List.mem_append_left _ (List.mem_append_right _ h.2))
    · rw [show (CT.twice m s).suf = "_flow_rate" from h.2.1]; decide +kernel
    · rw [show (CT.twice m s).suf = "_charge_state" from h.2]; decide +kernel
    · rw [show (CT.twice m s).suf = "__Investment_size" from h.2]; decide +kernel
  | lam f => simp only [CT.suf]; decide +kernel
  | segLam e => simp only [CT.suf]; decide +kernel
  | segm i => simp only [CT.suf]; decide +kernel
  | init => simp only [CT.suf]; decide +kernel
  | conv i => simp [CT.kind] at hk
  | share t => exact List.mem_append_right _ (h.1.share_suf h.2)

theorem kinds0 {s : String} (h : s ∈ plainConSufs) : 0 ∈ conSufKinds s := by
  unfold conSufKinds; rw [if_pos h]; simp
theorem kinds1 {s : String} (h : s ∈ (durOnSufs ++ durOffSufs) ++ ["_flow_rate", "_charge_state", "__Investment_size"]) : 1 ∈ conSufKinds s := by
  unfold conSufKinds; rw [if_pos h]; simp
theorem kinds6 {s : String} (h : s ∈ shareSufs ++ partSufs ++ excessSufs) : 6 ∈ conSufKinds s := by
  unfold conSufKinds; rw [if_pos h]; simp

theorem CT.Occurs.kind_mem {el : String} {t : CT} (h : t.Occurs el) (hk : t.kind ≠ 7) : t.kind ∈ conSufKinds t.suf := by
  cases t with
  | plain s => exact kinds0 h.2.1
  | twice m s =>
    refine kinds1 (s := s) ?_
    rcases h.2 with h | h | h | h
    · exact List.mem_append_left _ h.2
    · rw [h.2.1]; decide +kernel
    · rw [h.2]; decide +kernel
    · rw [h.2]; decide +kernel
  | lam f => simp only [CT.kind, CT.suf]; decide +kernel
  | segLam e => simp only [CT.kind, CT.suf]; decide +kernel
  | segm i => simp only [CT.kind, CT.suf]; decide +kernel
  | init => simp only [CT.kind, CT.suf]; decide +kernel
  | conv i => simp [CT.kind] at hk
  | share t => exact kinds6 (h.1.share_suf h.2)

theorem conKinds_apart : ∀ s ∈ allConSufs, ∀ i ∈ conSufKinds s, ∀ j ∈ conSufKinds s, i = j ∨
    (s = "_flow_rate" ∧ (i = 1 ∧ j = 2 ∨ i = 2 ∧ j = 1)) ∨ (s = "_charge_state" ∧ (i = 0 ∨ i = 1 ∨ i = 5) ∧ (j = 0 ∨ j = 1 ∨ j = 5)) := by
  decide +kernel

/-- A text without its digits at the end, backwards. -/
def core (s : String) : List Char := s.toList.reverse.dropWhile Char.isDigit

theorem dropWhile_append_ne {l r : List Char} (h : l.dropWhile Char.isDigit ≠ []) : (l ++ r).dropWhile Char.isDigit = l.dropWhile Char.isDigit ++ r := by
  induction l with
  | nil => simp at h
  | cons a l ih =>
    by_cases ha : a.isDigit = true
    · simp only [List.cons_append, List.dropWhile_cons, ha, if_true] at h ⊢
      exact ih h
    · simp [List.dropWhile_cons, ha]

theorem dropWhile_all {l r : List Char} (h : ∀ c ∈ l, c.isDigit = true) : (l ++ r).dropWhile Char.isDigit = r.dropWhile Char.isDigit := by
  induction l with
  | nil => rfl
  | cons a l ih =>
    simp only [List.cons_append, List.dropWhile_cons, h a (by simp), if_true]
    exact ih fun c hc => h c (by simp [hc])

theorem conv_core (a : String) (i : Nat) : core (a ++ "_conversion_" ++ toString i) = ("_conversion_" : String).toList.reverse ++ a.toList.reverse := by
  unfold core
  simp only [String.toList_append, List.reverse_append]
  rw [dropWhile_all (by intro c hc; exact isDigit_nat (List.mem_reverse.1 hc))]
  rw [dropWhile_append_ne (by decide +kernel)]
  congr 1
  
theorem cores : ∀ s ∈ allConSufs, core s ≠ [] ∧ ¬ core s <+: ("_conversion_" : String).toList.reverse ∧
    ¬ ("_conversion_" : String).toList.reverse <+: core s := by decide +kernel

/-- The label of a conversion is no other label. -/
theorem conv_ne {a b s : String} {i : Nat} (hs : s ∈ allConSufs) : a ++ "_conversion_" ++ toString i ≠ b ++ s := by
  intro h
  obtain ⟨h0, h1, h2⟩ := cores s hs
  have e := congrArg core h
  rw [conv_core] at e
  have e2 : core (b ++ s) = core s ++ b.toList.reverse := by
    unfold core at h0 ⊢
    rw [String.toList_append, List.reverse_append, dropWhile_append_ne h0]
  rw [e2] at e
  rcases List.append_eq_append_iff.1 e with ⟨c, hc, _⟩ | ⟨c, hc, _⟩
  · exact h2 ⟨c, hc.symm⟩
  · exact h1 ⟨c, hc.symm⟩

theorem conv_inj {a b : String} {i j : Nat} (h : a ++ "_conversion_" ++ toString i = b ++ "_conversion_" ++ toString j) : a = b ∧ i = j := by
  have e := congrArg core h
  rw [conv_core, conv_core] at e
  have e := List.append_cancel_left e
  have e := String.toList_inj.1 (List.reverse_inj.1 e)
  refine ⟨e, ?_⟩
  subst e
  have h := congrArg String.toList h
  simp only [String.toList_append, List.append_cancel_left_eq] at h
  exact toString_nat_inj (String.toList_inj.1 h)

/-- The only way for two constraints to have the same label: a storage whose label is that of another one with `_initial`. -/
def Clash (k k' : String × CT) : Prop := k.2 = .plain "_charge_state" ∧ k'.2 = .init ∧ k.1 = k'.1 ++ "_initial"

theorem full_of_flow {c f : String} (hc : IsName c) (hf : IsName f) : IsFull (c ++ "__" ++ f) := Or.inr ⟨c, f, hc, hf, rfl⟩

theorem name_no_us {s a b : String} (h : IsName s) : s ≠ a ++ "__" ++ b := fun he => C54_other h.valid he.symm

theorem lit_name {s : String} (h : labelIsValid s = true) (h0 : s ≠ "") : IsName s := ⟨h, h0⟩

/-- The parts between that are used by investments. -/
theorem mids_us {s el m : String} (hs : IsName s) (hm : m ∈ invMids) : s ≠ el ++ m ++ el := by
  have key : ∀ m ∈ invMids, m = "__" ++ String.ofList (m.toList.drop 2) := by decide +kernel
  rw [key m hm]
  intro h
  have h : s = el ++ "__" ++ (String.ofList (m.toList.drop 2) ++ el) := by rw [h]; simp only [String.append_assoc]
  exact name_no_us hs h

theorem name_initial {s : String} (h : IsName s) : IsName (s ++ "_initial") := by
  have := name_mid h (lit_name (s := "initial") (by decide +kernel) (by decide))
  rw [show s ++ "_initial" = s ++ "_" ++ "initial" by
    rw [String.append_assoc, show ("_" : String) ++ "initial" = "_initial" by decide +kernel]]
  exact this

theorem twice_lam {el el' m s f : String} (h : CT.Occurs el (.twice m s)) (h' : CT.Occurs el' (.lam f)) (hs : s = "_flow_rate") :
    el ++ m ++ el ≠ el' ++ "__MultipleSegments_lambda_" ++ (el' ++ "__" ++ f) := by
  intro hp
  have hm := h.2
  rw [hs] at hm
  rcases hm with ⟨_, h⟩ | ⟨hm, _, c, g, hc, hg, rfl⟩ | ⟨_, h⟩ | ⟨_, h⟩
  · exact absurd h (by decide +kernel)
  · have key : ∀ m ∈ invMids, m = "__" ++ String.ofList (m.toList.drop 2) := by decide +kernel
    rw [key m hm] at hp
    have e1 : c ++ "__" ++ g ++ ("__" ++ String.ofList (m.toList.drop 2)) ++ (c ++ "__" ++ g) =
        c ++ "__" ++ (g ++ "__" ++ (String.ofList (m.toList.drop 2) ++ c ++ "__" ++ g)) := by simp only [String.append_assoc]
    have e2 : el' ++ "__MultipleSegments_lambda_" ++ (el' ++ "__" ++ f) = el' ++ "__" ++ (("MultipleSegments_lambda" ++ "_" ++ el') ++ "__" ++ f) := by
      rw [show ("__MultipleSegments_lambda_" : String) = "__" ++ ("MultipleSegments_lambda" ++ "_") by decide +kernel]
      simp only [String.append_assoc]
    rw [e1, e2] at hp
    obtain ⟨_, h2⟩ := C54 hc.valid h'.1.valid hp
    have n2 := (name_mid (lit_name (s := "MultipleSegments_lambda") (by decide +kernel) (by decide)) h'.1).valid
    obtain ⟨_, h3⟩ := C54 hg.valid n2 h2
    exact name_no_us h'.2 h3.symm
  · exact absurd h (by decide +kernel)
  · exact absurd h (by decide +kernel)

/-- Different constraints have different labels. -/
theorem clabel_inj {k k' : String × CT} (h : k.2.Occurs k.1) (h' : k'.2.Occurs k'.1) (he : clabel k = clabel k') : k = k' ∨ Clash k k' ∨ Clash k' k := by
  obtain ⟨el, t⟩ := k
  obtain ⟨el', t'⟩ := k'
  simp only at h h'
  by_cases hk : t.kind = 7
  · by_cases hk' : t'.kind = 7
    · cases t <;> simp only [CT.kind] at hk <;> try omega
      cases t' <;> simp only [CT.kind] at hk' <;> try omega
      obtain ⟨h1, h2⟩ := conv_inj he
      left; simp only at h1; rw [h1, h2]
    · cases t <;> simp only [CT.kind] at hk <;> try omega
      exact absurd he (conv_ne (h'.suf_mem hk'))
  · by_cases hk' : t'.kind = 7
    · cases t' <;> simp only [CT.kind] at hk' <;> try omega
      exact absurd he.symm (conv_ne (h.suf_mem hk))
    · obtain ⟨hs, hp⟩ := apart_eq allConSufs_apart (h.suf_mem hk) (h'.suf_mem hk') he
      simp only at hs hp
      have hkk := conKinds_apart t.suf (h.suf_mem hk) t.kind (h.kind_mem hk) t'.kind (by rw [hs]; exact h'.kind_mem hk')
      cases t <;> cases t' <;> simp only [CT.kind] at hkk <;> first | omega | skip
      -- plain
      · simp only [CT.pre, CT.suf] at hs hp; left; rw [hs, hp]
      · -- plain, twice
        rename_i s m s'
        simp only [CT.suf, CT.pre] at hs hp hkk
        have hcs : s = "_charge_state" := by simpa using hkk
        have hm := h'.2
        rw [← hs, hcs] at hm
        have : m ∈ invMids := by
          rcases hm with ⟨_, h⟩ | ⟨_, h, _⟩ | ⟨h, _⟩ | ⟨_, h⟩
          · exact absurd h (by decide +kernel)
          · exact absurd h (by decide +kernel)
          · exact h
          · exact absurd h (by decide +kernel)
        exact absurd hp (mids_us (h.2.2 hcs) this)
      · -- plain, init
        rename_i s
        simp only [CT.suf, CT.pre] at hs hp
        exact Or.inr (Or.inl ⟨by rw [hs], rfl, hp⟩)
      · -- twice, plain
        rename_i m s s'
        simp only [CT.suf, CT.pre] at hs hp hkk
        have hcs : s = "_charge_state" := by simpa using hkk
        have hm := h.2
        rw [hcs] at hm
        have : m ∈ invMids := by
          rcases hm with ⟨_, h⟩ | ⟨_, h, _⟩ | ⟨h, _⟩ | ⟨_, h⟩
          · exact absurd h (by decide +kernel)
          · exact absurd h (by decide +kernel)
          · exact h
          · exact absurd h (by decide +kernel)
        exact absurd hp.symm (mids_us (h'.2.2 (hs.symm.trans hcs)) this)
      · -- twice, twice
        rename_i m s m' s'
        simp only [CT.suf, CT.pre] at hs hp
        subst hs
        have hmm : m.toList.length = m'.toList.length ∨ (m.toList.length + m'.toList.length) % 2 = 1 := by
          have hh := h.2
          have hh' := h'.2
          have d1 : ∀ s ∈ durOnSufs ++ durOffSufs, s ≠ "_flow_rate" ∧ s ≠ "_charge_state" ∧ s ≠ "__Investment_size" := by decide +kernel
          have d2 : ∀ a ∈ invMids, ∀ b ∈ invMids, a.toList.length = b.toList.length ∨ (a.toList.length + b.toList.length) % 2 = 1 := by decide +kernel
          rcases hh with ⟨a1, a2⟩ | ⟨a1, a2, _⟩ | ⟨a1, a2⟩ | ⟨a1, a2⟩ <;> rcases hh' with ⟨b1, b2⟩ | ⟨b1, b2, _⟩ | ⟨b1, b2⟩ | ⟨b1, b2⟩
          · left; rw [a1, b1]
          · exact absurd b2 (d1 s a2).1
          · exact absurd b2 (d1 s a2).2.1
          · exact absurd b2 (d1 s a2).2.2
          · exact absurd a2 (d1 s b2).1
          · exact d2 m a1 m' b1
          · exact d2 m a1 m' b1
          · rw [a2] at b2; exact absurd b2 (by decide)
          · exact absurd a2 (d1 s b2).2.1
          · exact d2 m a1 m' b1
          · exact d2 m a1 m' b1
          · rw [a2] at b2; exact absurd b2 (by decide)
          · exact absurd a2 (d1 s b2).2.2
          · rw [a2] at b2; exact absurd b2 (by decide)
          · rw [a2] at b2; exact absurd b2 (by decide)
          · left; rw [a1, b1]
        obtain ⟨h1, h2⟩ := twice_mid hmm hp
        left; rw [h1, h2]
      · -- twice, lam
        rename_i m s f
        simp only [CT.suf, CT.pre] at hs hp
        exact absurd hp (twice_lam h h' hs)
      · -- twice, init
        rename_i m s
        simp only [CT.suf, CT.pre] at hs hp hkk
        have hm := h.2
        rw [hs] at hm
        have : m ∈ invMids := by
          rcases hm with ⟨_, h⟩ | ⟨_, h, _⟩ | ⟨h, _⟩ | ⟨_, h⟩
          · exact absurd h (by decide +kernel)
          · exact absurd h (by decide +kernel)
          · exact h
          · exact absurd h (by decide +kernel)
        exact absurd hp.symm (mids_us (name_initial h') this)
      · -- lam, twice
        rename_i f m s
        simp only [CT.suf, CT.pre] at hs hp
        exact absurd hp.symm (twice_lam h' h hs.symm)
      · -- lam, lam
        rename_i f f'
        simp only [CT.pre] at hp
        have e1 : ∀ el f : String, el ++ "__MultipleSegments_lambda_" ++ (el ++ "__" ++ f) = el ++ "__" ++ (("MultipleSegments_lambda" ++ "_" ++ el) ++ "__" ++ f) := by
          intro el f
          rw [show ("__MultipleSegments_lambda_" : String) = "__" ++ ("MultipleSegments_lambda" ++ "_") by decide +kernel]
          simp only [String.append_assoc]
        rw [e1, e1] at hp
        obtain ⟨h1, h2⟩ := C54 h.1.valid h'.1.valid hp
        have n1 := (name_mid (lit_name (s := "MultipleSegments_lambda") (by decide +kernel) (by decide)) h.1).valid
        have n2 := (name_mid (lit_name (s := "MultipleSegments_lambda") (by decide +kernel) (by decide)) h'.1).valid
        obtain ⟨_, h3⟩ := C54 n1 n2 h2
        left; rw [h1, h3]
      · -- segLam
        rename_i e e'
        simp only [CT.pre] at hp
        obtain ⟨h1, h2⟩ := split_last (segShares_valid h.2) (segShares_valid h'.2) hp
        have h2 := congrArg String.toList h2
        simp only [String.toList_append, List.append_cancel_left_eq] at h2
        left; rw [twice_inj h1, String.toList_inj.1 h2]
      · -- segm
        rename_i i i'
        obtain ⟨h1, h2⟩ := split_last (segment_valid i) (segment_valid i') hp
        have h2 := congrArg String.toList h2
        simp only [String.toList_append, List.append_cancel_left_eq] at h2
        left; rw [h1, toString_nat_inj (String.toList_inj.1 h2)]
      · -- init, plain
        rename_i s
        simp only [CT.suf, CT.pre] at hs hp
        exact Or.inr (Or.inr ⟨by rw [← hs], rfl, hp.symm⟩)
      · -- init, twice
        rename_i m s
        simp only [CT.suf, CT.pre] at hs hp hkk
        have hm := h'.2
        rw [← hs] at hm
        have : m ∈ invMids := by
          rcases hm with ⟨_, h⟩ | ⟨_, h, _⟩ | ⟨h, _⟩ | ⟨_, h⟩
          · exact absurd h (by decide +kernel)
          · exact absurd h (by decide +kernel)
          · exact h
          · exact absurd h (by decide +kernel)
        exact absurd hp (mids_us (name_initial h) this)
      · -- init, init
        simp only [CT.pre] at hp
        left; rw [append_left_inj'.1 hp]
      · exact absurd rfl hk
      · -- share, share
        rename_i t t'
        have e1 : ∀ el t, clabel (el, CT.share t) = vlabel (el, t) ++ "_" ++ vlabel (el, t) := by
          intro el t
          simp only [clabel, CT.pre, CT.suf, vlabel, String.append_assoc]
        rw [e1, e1] at he
        have := vlabel_inj h.1 h'.1 (twice_inj he)
        simp only [Prod.mk.injEq] at this
        left; rw [this.1, this.2]

end Flix
