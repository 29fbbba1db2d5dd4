import Verif.Model.SolverLog

/-! # Matching of patterns made of text and digits -/

namespace Flix

/-- A nonempty run of decimal digits. -/
def Digits (ds : List Char) : Prop := ds ≠ [] ∧ ∀ c ∈ ds, c.isDigit = true

/-- A number with an optional minus sign. -/
def SignedDigits (ds : List Char) : Prop := Digits ds ∨ ∃ ds', ds = '-' :: ds' ∧ Digits ds'

/-- The text has the form of the pattern, with these groups. -/
inductive Shaped : List Piece → List (List Char) → List Char → Prop
  | nil : Shaped [] [] []
  | lit {s ps gs cs} : Shaped ps gs cs → Shaped (.lit s :: ps) gs (s.toList ++ cs)
  | digits {ds ps gs cs} : Digits ds → Shaped ps gs cs → Shaped (.digits :: ps) (ds :: gs) (ds ++ cs)
  | signed {ds ps gs cs} : SignedDigits ds → Shaped ps gs cs → Shaped (.signed :: ps) (ds :: gs) (ds ++ cs)

/-- No digit follows. -/
def Ends (cs : List Char) : Prop := ∀ c, cs.head? = some c → c.isDigit = false

/-- Groups of digits are followed by text that does not begin with a digit. -/
def Separated : List Piece → Prop
  | [] => True
  | .lit _ :: ps => Separated ps
  | .digits :: ps => Separated ps ∧ (ps = [] ∨ ∃ s ps', ps = .lit s :: ps' ∧ s.toList ≠ [] ∧ Ends s.toList)
  | .signed :: ps => Separated ps ∧ (ps = [] ∨ ∃ s ps', ps = .lit s :: ps' ∧ s.toList ≠ [] ∧ Ends s.toList)

theorem mem_digitLens {cs : List Char} {k : Nat} (h : k ∈ digitLens cs) : Digits (cs.take k) := by
  unfold digitLens at h
  simp only [List.mem_reverse, List.mem_map, List.mem_range] at h
  obtain ⟨i, hi, rfl⟩ := h
  have pre : cs.takeWhile Char.isDigit <+: cs := List.takeWhile_prefix _
  have len : (cs.takeWhile Char.isDigit).length ≤ cs.length := pre.length_le
  refine ⟨fun e => ?_, fun c hc => ?_⟩
  · have := congrArg List.length e
    rw [List.length_take, List.length_nil] at this
    omega
  · have : cs.take (i + 1) = (cs.takeWhile Char.isDigit).take (i + 1) := by
      obtain ⟨r, hr⟩ := pre
      conv_lhs => rw [← hr]
      rw [List.take_append_of_le_length (by omega)]
    rw [this] at hc
    have := List.mem_of_mem_take hc
    have all := List.all_takeWhile (p := Char.isDigit) (l := cs)
    exact List.all_eq_true.1 all c this

theorem digitLens_of_run {ds cs : List Char} (hd : Digits ds) (he : Ends cs) : ∃ rest, digitLens (ds ++ cs) = ds.length :: rest := by
  have h0 : cs.takeWhile Char.isDigit = [] := by
    cases cs with
    | nil => rfl
    | cons c cs =>
      rw [List.takeWhile_cons_of_neg]
      rw [he c rfl]
      decide
  have : (ds ++ cs).takeWhile Char.isDigit = ds := by
    rw [List.takeWhile_append_of_pos hd.2, h0, List.append_nil]
  unfold digitLens
  rw [this]
  cases ds with
  | nil => exact absurd rfl hd.1
  | cons d ds =>
    refine ⟨((List.range ds.length).map (· + 1)).reverse, ?_⟩
    rw [List.length_cons, List.range_succ, List.map_append, List.reverse_append]
    rfl

theorem findSome?_sound {α β : Type} {f : α → Option β} {l : List α} {b : β} (h : l.findSome? f = some b) : ∃ a ∈ l, f a = some b := by
  induction l with
  | nil => cases h
  | cons a l ih =>
    rw [List.findSome?_cons] at h
    split at h
    · rename_i x hx
      cases h
      exact ⟨a, List.mem_cons_self, hx⟩
    · obtain ⟨a', h1, h2⟩ := ih h
      exact ⟨a', List.mem_cons_of_mem _ h1, h2⟩

/-- What matches has the form of the pattern. -/
theorem matchHere_sound {ps : List Piece} : ∀ {cs : List Char} {gs : List (List Char)}, matchHere ps cs = some gs → ∃ text rest, cs = text ++ rest ∧ Shaped ps gs text := by
  induction ps with
  | nil => intro cs gs h; cases h; exact ⟨[], cs, rfl, .nil⟩
  | cons p ps ih =>
    intro cs gs h
    have step : ∀ {k : Nat} {gs : List (List Char)}, (matchHere ps (cs.drop k)).map (cs.take k :: ·) = some gs → ∃ gs' text rest, gs = cs.take k :: gs' ∧ cs = cs.take k ++ text ++ rest ∧ Shaped ps gs' text := by
      intro k gs hk
      obtain ⟨g, hg, rfl⟩ := Option.map_eq_some_iff.1 hk
      obtain ⟨text, rest, e, hsh⟩ := ih hg
      refine ⟨g, text, rest, rfl, ?_, hsh⟩
      rw [List.append_assoc, ← e, List.take_append_drop]
    cases p with
    | lit s =>
      simp only [matchHere] at h
      split at h
      · rename_i hp
        obtain ⟨r, hr⟩ := List.isPrefixOf_iff_prefix.1 hp
        rw [← hr, List.drop_left] at h
        obtain ⟨text, rest, rfl, hsh⟩ := ih h
        exact ⟨s.toList ++ text, rest, by rw [← hr, List.append_assoc], .lit hsh⟩
      · cases h
    | digits =>
      simp only [matchHere] at h
      obtain ⟨k, hk, hm⟩ := findSome?_sound h
      obtain ⟨g, text, rest, rfl, e, hsh⟩ := step hm
      exact ⟨_, rest, e, .digits (mem_digitLens hk) hsh⟩
    | signed =>
      simp only [matchHere] at h
      split at h
      · rename_i hd
        obtain ⟨k, hk, hm⟩ := findSome?_sound h
        obtain ⟨g, text, rest, rfl, e, hsh⟩ := step hm
        refine ⟨_, rest, e, .signed (.inr ⟨cs.tail.take k, ?_, mem_digitLens hk⟩) hsh⟩
        cases cs with
        | nil => cases hd
        | cons c cs => cases hd; rfl
      · obtain ⟨k, hk, hm⟩ := findSome?_sound h
        obtain ⟨g, text, rest, rfl, e, hsh⟩ := step hm
        exact ⟨_, rest, e, .signed (.inl (mem_digitLens hk)) hsh⟩

/-- Text of the form of the pattern matches with its own groups. -/
theorem matchHere_complete {ps : List Piece} {gs : List (List Char)} {text : List Char} (h : Shaped ps gs text) : Separated ps → ∀ {rest : List Char}, (Ends rest ∨ ∃ s, ps.getLast? = some (.lit s)) → matchHere ps (text ++ rest) = some gs := by
  induction h with
  | nil => intro _ rest _; rfl
  | @lit s ps gs cs hsh ih =>
    intro hsep rest hr
    simp only [matchHere]
    rw [if_pos (List.isPrefixOf_iff_prefix.2 ⟨cs ++ rest, by rw [List.append_assoc]⟩), List.append_assoc, List.drop_left]
    cases ps with
    | nil => cases hsh; rfl
    | cons p ps => exact ih hsep (by rwa [List.getLast?_cons_cons] at hr)
  | @digits ds ps gs cs hd hsh ih =>
    intro hsep rest hr
    obtain ⟨h1, h2⟩ := hsep
    have follow : Ends (cs ++ rest) ∧ matchHere ps (cs ++ rest) = some gs := by
      rcases h2 with rfl | ⟨s, ps', rfl, hs, he⟩
      · cases hsh
        rcases hr with hr | ⟨s, hs⟩
        · exact ⟨hr, rfl⟩
        · cases hs
      · refine ⟨?_, ih h1 (by rwa [List.getLast?_cons_cons] at hr)⟩
        cases hsh
        intro c hc
        apply he c
        cases hl : s.toList with
        | nil => exact absurd hl hs
        | cons a l => rw [hl] at hc; exact hc
    obtain ⟨rest', hl⟩ := digitLens_of_run hd follow.1
    simp only [matchHere]
    rw [List.append_assoc, hl, List.findSome?_cons, List.drop_left, List.take_left, follow.2]
    rfl
  | @signed ds ps gs cs hd hsh ih =>
    intro hsep rest hr
    obtain ⟨h1, h2⟩ := hsep
    have follow : Ends (cs ++ rest) ∧ matchHere ps (cs ++ rest) = some gs := by
      rcases h2 with rfl | ⟨s, ps', rfl, hs, he⟩
      · cases hsh
        rcases hr with hr | ⟨s, hs⟩
        · exact ⟨hr, rfl⟩
        · cases hs
      · refine ⟨?_, ih h1 (by rwa [List.getLast?_cons_cons] at hr)⟩
        cases hsh
        intro c hc
        apply he c
        cases hl : s.toList with
        | nil => exact absurd hl hs
        | cons a l => rw [hl] at hc; exact hc
    simp only [matchHere]
    rcases hd with hd | ⟨ds', rfl, hd⟩
    · obtain ⟨rest', hl⟩ := digitLens_of_run hd follow.1
      rw [if_neg, List.append_assoc, hl, List.findSome?_cons, List.drop_left, List.take_left, follow.2]
      · rfl
      · cases ds with
        | nil => exact absurd rfl hd.1
        | cons d ds =>
          intro e
          cases e
          have := hd.2 '-' List.mem_cons_self
          revert this
          decide
    · obtain ⟨rest', hl⟩ := digitLens_of_run hd follow.1
      rw [if_pos (show ('-' :: ds' ++ cs ++ rest).head? = some '-' from rfl), List.append_assoc]
      show List.findSome? _ (digitLens (ds' ++ (cs ++ rest))) = _
      rw [hl, List.findSome?_cons]
      simp only [List.cons_append, List.drop_succ_cons, List.drop_left, List.take_succ_cons, List.take_left, follow.2]
      rfl

theorem matchHere_lit {s : String} {ps : List Piece} {cs : List Char} {g : List (List Char)} (h : matchHere (.lit s :: ps) cs = some g) : s.toList <+: cs := by
  simp only [matchHere] at h
  split at h
  · rename_i hp; exact List.isPrefixOf_iff_prefix.1 hp
  · cases h

/-- The text `s` does not begin inside `pre`, when `pre` is followed by `rest`. -/
def NotBefore (s : String) (pre rest : List Char) : Prop := ∀ a b, pre = a ++ b → b ≠ [] → ¬ s.toList <+: b ++ rest

theorem notBefore_of {s : String} {pre rest : List Char} (h : (List.range pre.length).all (fun k => !s.toList.isPrefixOf ((pre ++ rest).drop k)) = true) : NotBefore s pre rest := by
  intro a b e hb hp
  subst e
  have := List.all_eq_true.1 h a.length (by simpa using List.length_pos_iff.2 hb)
  rw [List.append_assoc, List.drop_left, List.isPrefixOf_iff_prefix.2 hp] at this
  cases this

theorem searchLog_found {s : String} {ps : List Piece} {gs : List (List Char)} {pre text rest : List Char} (h : Shaped (.lit s :: ps) gs text) (hsep : Separated (.lit s :: ps))
    (hr : Ends rest ∨ ∃ s', (Piece.lit s :: ps).getLast? = some (.lit s')) (hb : NotBefore s pre (text ++ rest)) : searchLog (.lit s :: ps) (pre ++ (text ++ rest)) = some gs := by
  induction pre with
  | nil =>
    have := matchHere_complete h hsep hr
    rw [List.nil_append]
    cases e : text ++ rest with
    | nil => rw [e] at this; exact this
    | cons c cs => rw [e] at this; simp only [searchLog, this]
  | cons c pre ih =>
    have no : matchHere (.lit s :: ps) (c :: pre ++ (text ++ rest)) = none := by
      cases e : matchHere (.lit s :: ps) (c :: pre ++ (text ++ rest)) with
      | none => rfl
      | some g => exact absurd (matchHere_lit e) (hb [] (c :: pre) rfl (by simp))
    rw [List.cons_append] at no ⊢
    simp only [searchLog, no]
    exact ih fun a b e hne => hb (c :: a) b (by rw [e]; rfl) hne

/-- What is found is somewhere in the text, and nothing of this form begins with less text before it. -/
theorem searchLog_sound {ps : List Piece} {log : List Char} {gs : List (List Char)} (h : searchLog ps log = some gs) : ∃ pre text rest, log = pre ++ text ++ rest ∧ Shaped ps gs text := by
  induction log with
  | nil =>
    obtain ⟨text, rest, e, hsh⟩ := matchHere_sound (show matchHere ps [] = some gs from h)
    exact ⟨[], text, rest, e, hsh⟩
  | cons c cs ih =>
    simp only [searchLog] at h
    split at h
    · rename_i g hm
      cases h
      obtain ⟨text, rest, e, hsh⟩ := matchHere_sound hm
      exact ⟨[], text, rest, e, hsh⟩
    · obtain ⟨pre, text, rest, e, hsh⟩ := ih h
      exact ⟨c :: pre, text, rest, by rw [e]; rfl, hsh⟩

theorem findSome?_found {α β : Type} {f : α → Option β} {l : List α} {a : α} {b : β} (ha : a ∈ l) (h : f a = some b) : ∃ b', l.findSome? f = some b' := by
  induction l with
  | nil => cases ha
  | cons x l ih =>
    rw [List.findSome?_cons]
    cases e : f x with
    | some y => exact ⟨y, rfl⟩
    | none =>
      rcases List.mem_cons.1 ha with rfl | ha
      · rw [h] at e; cases e
      · exact ih ha

theorem length_mem_digitLens {ds cs : List Char} (hd : Digits ds) : ds.length ∈ digitLens (ds ++ cs) := by
  unfold digitLens
  rw [List.takeWhile_append_of_pos hd.2]
  simp only [List.mem_reverse, List.mem_map, List.mem_range, List.length_append]
  have : 0 < ds.length := List.length_pos_iff.2 hd.1
  exact ⟨ds.length - 1, by omega, by omega⟩

/-- Backtracking finds a match wherever there is one. -/
theorem matchHere_some {ps : List Piece} {gs : List (List Char)} {text : List Char} (h : Shaped ps gs text) (rest : List Char) : ∃ g, matchHere ps (text ++ rest) = some g := by
  induction h with
  | nil => exact ⟨_, rfl⟩
  | @lit s ps gs cs hsh ih =>
    simp only [matchHere]
    rw [if_pos (List.isPrefixOf_iff_prefix.2 ⟨cs ++ rest, by rw [List.append_assoc]⟩), List.append_assoc, List.drop_left]
    exact ih
  | @digits ds ps gs cs hd hsh ih =>
    obtain ⟨g, hg⟩ := ih
    simp only [matchHere]
    rw [List.append_assoc]
    refine findSome?_found (length_mem_digitLens hd) (b := ds :: g) ?_
    rw [List.drop_left, List.take_left, hg]
    rfl
  | @signed ds ps gs cs hd hsh ih =>
    obtain ⟨g, hg⟩ := ih
    simp only [matchHere]
    rw [List.append_assoc]
    rcases hd with hd | ⟨ds', rfl, hd⟩
    · rw [if_neg]
      · refine findSome?_found (length_mem_digitLens hd) (b := ds :: g) ?_
        rw [List.drop_left, List.take_left, hg]
        rfl
      · cases ds with
        | nil => exact absurd rfl hd.1
        | cons d ds =>
          intro e
          cases e
          have := hd.2 '-' List.mem_cons_self
          revert this
          decide
    · rw [if_pos (show ('-' :: ds' ++ (cs ++ rest)).head? = some '-' from rfl)]
      show ∃ g, List.findSome? _ (digitLens (ds' ++ (cs ++ rest))) = some g
      refine findSome?_found (length_mem_digitLens hd) (b := ('-' :: ds') :: g) ?_
      simp only [List.cons_append, List.drop_succ_cons, List.drop_left, List.take_succ_cons, List.take_left, hg]
      rfl

theorem searchLog_some {ps : List Piece} {gs : List (List Char)} {text : List Char} (h : Shaped ps gs text) (pre rest : List Char) : ∃ g, searchLog ps (pre ++ text ++ rest) = some g := by
  rw [List.append_assoc]
  induction pre with
  | nil =>
    obtain ⟨g, hg⟩ := matchHere_some h rest
    rw [List.nil_append]
    cases e : text ++ rest with
    | nil => rw [e] at hg; exact ⟨_, hg⟩
    | cons c cs => rw [e] at hg; simp only [searchLog, hg]; exact ⟨_, rfl⟩
  | cons c pre ih =>
    rw [List.cons_append]
    simp only [searchLog]
    split
    · exact ⟨_, rfl⟩
    · exact ih

theorem sep_follow {s : String} {ps : List Piece} (hs : s.toList.head?.any (fun c => !c.isDigit) = true) (h : Separated ps) :
    Separated (.digits :: .lit s :: ps) ∧ Separated (.signed :: .lit s :: ps) := by
  have : s.toList ≠ [] ∧ Ends s.toList := by
    cases e : s.toList with
    | nil => rw [e] at hs; cases hs
    | cons c l =>
      rw [e] at hs
      refine ⟨by simp, fun x hx => ?_⟩
      cases hx
      simpa using hs
  exact ⟨⟨h, .inr ⟨s, ps, rfl, this⟩⟩, ⟨h, .inr ⟨s, ps, rfl, this⟩⟩⟩

theorem shaped_lit {s : String} {ps : List Piece} {gs : List (List Char)} {t : List Char} (h : Shaped (.lit s :: ps) gs t) : ∃ t', t = s.toList ++ t' ∧ Shaped ps gs t' := by
  cases h with
  | lit h => exact ⟨_, rfl, h⟩

theorem shaped_digits {ps : List Piece} {gs : List (List Char)} {t : List Char} (h : Shaped (.digits :: ps) gs t) : ∃ d gs' t', gs = d :: gs' ∧ t = d ++ t' ∧ Digits d ∧ Shaped ps gs' t' := by
  cases h with
  | digits hd h => exact ⟨_, _, _, rfl, rfl, hd, h⟩

theorem shaped_signed {ps : List Piece} {gs : List (List Char)} {t : List Char} (h : Shaped (.signed :: ps) gs t) :
    ∃ d gs' t', gs = d :: gs' ∧ t = d ++ t' ∧ SignedDigits d ∧ Shaped ps gs' t' := by
  cases h with
  | signed hd h => exact ⟨_, _, _, rfl, rfl, hd, h⟩

theorem digits_repr (n : Nat) : Digits (toString n).toList ∧ Nat.ofDigitChars 10 (toString n).toList 0 = n := by
  have e : (toString n).toList = Nat.toDigits 10 n := by
    show n.repr.toList = _
    exact Nat.toList_repr
  rw [e]
  exact ⟨⟨Nat.toDigits_ne_nil, fun c hc => Nat.isDigit_of_mem_toDigits (by decide) (by decide) hc⟩, Nat.ofDigitChars_ten_toDigits⟩

end Flix
