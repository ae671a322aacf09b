import Verif.Lemmas.DriverFloat
import Mathlib.Tactic.Tauto

/-!
# C82, C83: the choice of the sampler and keyword strings
-/

namespace Radvel

theorem booleanStates_spec (u : Text) :
    ((booleanStates.find? fun b => b.1 = u).map Prod.snd = some true ↔ u ∈ ["1".toList, "yes".toList, "true".toList, "on".toList]) ∧
      ((booleanStates.find? fun b => b.1 = u).map Prod.snd = some false ↔ u ∈ ["0".toList, "no".toList, "false".toList, "off".toList]) := by
  by_cases h : u ∈ ["1".toList, "yes".toList, "true".toList, "on".toList, "0".toList, "no".toList, "false".toList, "off".toList]
  · simp only [List.mem_cons, List.not_mem_nil, or_false] at h
    rcases h with rfl | rfl | rfl | rfl | rfl | rfl | rfl | rfl <;> decide
  · have hn : booleanStates.find? (fun b => b.1 = u) = none := by
      rw [List.find?_eq_none]
      intro b hb
      simp only [booleanStates, List.mem_cons, List.not_mem_nil, or_false] at hb
      simp only [List.mem_cons, List.not_mem_nil, or_false, not_or] at h
      rcases hb with rfl | rfl | rfl | rfl | rfl | rfl | rfl | rfl <;> simp only [decide_eq_true_eq] <;> intro he <;> simp_all
    rw [hn]
    simp only [List.mem_cons, List.not_mem_nil, or_false, not_or] at h ⊢
    simp only [Option.map_none, reduceCtorEq, false_iff, not_or]
    tauto

theorem getBoolean_spec (c : Config) (s k : Text) (b : Bool) :
    getBoolean c s k = .ok b ↔ ∃ d v, c.get? s = some d ∧ d.get? (lower k) = some v ∧ (booleanStates.find? fun b => b.1 = lower v).map Prod.snd = some b := by
  unfold getBoolean getOption
  rcases hd : c.get? s with _ | d
  · constructor
    · intro h; cases h
    · rintro ⟨d, v, h, _⟩; cases h
  · simp only
    rcases hv : d.get? (lower k) with _ | v
    · constructor
      · intro h; cases h
      · rintro ⟨d', v, h, h', _⟩; cases h; rw [hv] at h'; cases h'
    · simp only
      constructor
      · intro h
        refine ⟨d, v, rfl, hv, ?_⟩
        rcases ho : (booleanStates.find? fun b => b.1 = lower v).map Prod.snd with _ | b'
        · rw [ho] at h; cases h
        · rw [ho] at h; cases h; exact ho
      · rintro ⟨d', v', h, h', h''⟩
        cases h
        rw [hv] at h'
        cases h'
        rw [h'']

theorem hasRun_true {c : Config} {s : Text} : hasRun c s = .ok true ↔ Ran c s := by
  unfold hasRun Ran
  have hl : lower "run".toList = "run".toList := by decide
  split_ifs with h
  · rw [getBoolean_spec, hl]
    simp only [(booleanStates_spec _).1]
  · have : c.get? s = none := by
      rw [Dict.get?_eq_none_iff]
      exact fun hm => h ((Dict.has_iff _ _).2 hm)
    constructor
    · intro h; cases h
    · rintro ⟨d, v, hd, _⟩
      rw [this] at hd
      cases hd

theorem hasRun_false {c : Config} {s : Text} : hasRun c s = .ok false ↔ NotRan c s := by
  unfold hasRun NotRan
  have hl : lower "run".toList = "run".toList := by decide
  split_ifs with h
  · rw [getBoolean_spec, hl]
    simp only [(booleanStates_spec _).2]
    have := (Dict.has_iff _ _).1 h
    tauto
  · have : s ∉ c.keys := fun hm => h ((Dict.has_iff _ _).2 hm)
    exact ⟨fun _ => .inl this, fun _ => rfl⟩

/-- C82 for any status: what is chosen has been run, and a request for one of the two samplers gives that sampler. -/
theorem C82_sound (request : Text) (c : Config) (s : Text) (h : pickSampler request c = .ok s) :
    Ran c s ∧ (request = s ∨ request = "auto".toList) ∧ (s = "mcmc".toList ∨ s = "ns".toList) := by
  unfold pickSampler at h
  rcases hm : hasRun c "mcmc".toList with e | bm
  · rw [hm] at h; cases h
  rcases hn : hasRun c "ns".toList with e | bn
  · rw [hm, hn] at h; cases h
  rw [hm, hn] at h
  simp only [bind, Except.bind] at h
  cases bm <;> cases bn <;> simp only [Bool.or_self, Bool.not_false, Bool.not_true, Bool.or_false, Bool.or_true, Bool.false_eq_true, if_true, if_false] at h
  · cases h
  · split_ifs at h with h1 h2 h3
    · cases h; exact ⟨hasRun_true.1 hn, .inr h1, .inr rfl⟩
    · cases h; exact ⟨hasRun_true.1 hn, .inl h3, .inr rfl⟩
  · split_ifs at h with h1 h2 h3
    · cases h; exact ⟨hasRun_true.1 hm, .inr h1, .inl rfl⟩
    · cases h; exact ⟨hasRun_true.1 hm, .inl h2, .inl rfl⟩
  · split_ifs at h with h1 h2 h3
    · cases h; exact ⟨hasRun_true.1 hm, .inr h1, .inl rfl⟩
    · cases h; exact ⟨hasRun_true.1 hm, .inl h2, .inl rfl⟩
    · cases h; exact ⟨hasRun_true.1 hn, .inl h3, .inr rfl⟩

/-- C82: a sampler that has been run is returned when it is asked for; `auto` finds the one that has been run. -/
theorem C82_requested (c : Config) (s t : Text) (hst : (s = "mcmc".toList ∧ t = "ns".toList) ∨ (s = "ns".toList ∧ t = "mcmc".toList)) (hs : Ran c s) :
    ((Ran c t ∨ NotRan c t) → pickSampler s c = .ok s) ∧ (NotRan c t → pickSampler "auto".toList c = .ok s ∧ pickSampler t c = .error .valueError) := by
  have h1 := hasRun_true.2 hs
  rcases hst with ⟨rfl, rfl⟩ | ⟨rfl, rfl⟩
  · refine ⟨?_, ?_⟩
    · rintro (h | h)
      · unfold pickSampler; rw [h1, hasRun_true.2 h]; rfl
      · unfold pickSampler; rw [h1, hasRun_false.2 h]; rfl
    · intro h
      refine ⟨?_, ?_⟩ <;> unfold pickSampler <;> rw [h1, hasRun_false.2 h] <;> rfl
  · refine ⟨?_, ?_⟩
    · rintro (h | h)
      · unfold pickSampler; rw [h1, hasRun_true.2 h]; rfl
      · unfold pickSampler; rw [h1, hasRun_false.2 h]; rfl
    · intro h
      refine ⟨?_, ?_⟩ <;> unfold pickSampler <;> rw [h1, hasRun_false.2 h] <;> rfl

/-- C82: with no sampler run, or for any other request, an error is raised. -/
theorem C82_none (request : Text) (c : Config) :
    (NotRan c "mcmc".toList → NotRan c "ns".toList → pickSampler request c = .error .assertionError) ∧
      (request ≠ "auto".toList → request ≠ "mcmc".toList → request ≠ "ns".toList → ∃ e, pickSampler request c = .error e) := by
  refine ⟨?_, ?_⟩
  · intro h1 h2
    unfold pickSampler
    rw [hasRun_false.2 h1, hasRun_false.2 h2]
    rfl
  · intro h1 h2 h3
    rcases h : pickSampler request c with e | s
    · exact ⟨e, rfl⟩
    · obtain ⟨_, h4, h5⟩ := C82_sound request c s h
      rcases h4 with rfl | h4
      · rcases h5 with h5 | h5
        · exact absurd h5 h2
        · exact absurd h5 h3
      · exact absurd h4 h1

/-- C82 is false for `auto` when both samplers have been run: no error, the MCMC chains are taken silently. -/
theorem C82_both_violated (c : Config) (h1 : Ran c "mcmc".toList) (h2 : Ran c "ns".toList) : pickSampler "auto".toList c = .ok "mcmc".toList := by
  unfold pickSampler
  rw [hasRun_true.2 h1, hasRun_true.2 h2]
  rfl

/-- A status after both samplers. -/
def bothRan : Config := [("mcmc".toList, [("run".toList, "True".toList)]), ("ns".toList, [("run".toList, "True".toList)])]

/-- Non-vacuity of C82. -/
example : Ran bothRan "mcmc".toList ∧ Ran bothRan "ns".toList ∧ NotRan bothRan "derive".toList ∧ pickSampler "ns".toList bothRan = .ok "ns".toList ∧ Ran [("ns".toList, [("run".toList, "True".toList)])] "ns".toList ∧
    NotRan [("ns".toList, [("run".toList, "True".toList)])] "mcmc".toList := by
  refine ⟨⟨_, _, rfl, rfl, by decide⟩, ⟨_, _, rfl, rfl, by decide⟩, .inl (by decide), by decide, ⟨_, _, rfl, rfl, by decide⟩, .inl (by decide)⟩

/-- C83: the keyword string of one or more pairs is parsed into a dictionary with exactly their keys; a key that occurs more than once has the last value. -/
theorem C83_pairs (pairs : List (Text × Text)) (hne : pairs ≠ []) (h : ∀ p ∈ pairs, Word p.1 ∧ Word p.2) :
    ∃ d, processKwargs (some (kwargsText pairs)) = .ok d ∧ d.keys.Nodup ∧ ∀ k, d.get? k = (pairs.reverse.find? fun p => p.1 = k).map fun p => castStrArg p.2 := by
  refine ⟨_, ?_, fold_keys pairs [] (by simp [Dict.keys]), ?_⟩
  · unfold processKwargs kwargsText
    simp only
    rw [splitChar_intercalate]
    · exact addPair_fold pairs [] h
    · intro x hx
      obtain ⟨p, hp, rfl⟩ := List.mem_map.1 hx
      obtain ⟨h1, h2⟩ := h p hp
      intro hm
      rcases List.mem_append.1 hm with hm | hm
      · exact h1.1 hm
      · rcases List.mem_cons.1 hm with hm | hm
        · exact absurd hm (by decide)
        · exact h2.1 hm
    · simpa using hne
  · intro k
    rw [fold_get?]
    simp [Dict.get?]

/-- Non-vacuity of C83: the string `nlive=250 dlogz=0.5 bound=multi`. -/
example : kwargsText [("nlive".toList, "250".toList), ("dlogz".toList, "0.5".toList), ("bound".toList, "multi".toList)] = "nlive=250 dlogz=0.5 bound=multi".toList ∧
    processKwargs (some "nlive=250 dlogz=0.5 bound=multi".toList) = .ok [("nlive".toList, .int 250), ("dlogz".toList, .float (.dec false 5 (-1))), ("bound".toList, .str "multi".toList)] ∧
    ∀ p ∈ [("nlive".toList, "250".toList), ("dlogz".toList, "0.5".toList), ("bound".toList, "multi".toList)], Word p.1 ∧ Word p.2 := by
  refine ⟨by decide, by decide +kernel, by unfold Word; decide⟩

/-- C83 for no pairs at all: an empty string is an error, although no string at all is not. -/
theorem C83_empty : processKwargs (some (kwargsText [])) = .error .valueError ∧ processKwargs none = .ok [] := ⟨rfl, rfl⟩

/-- C83: a value is read as an integer exactly if it is an integer literal. -/
theorem C83_int (t : Text) (n : Int) : castStrArg t = .int n ↔ IntText t n := by
  rw [← pyInt_iff]
  unfold castStrArg
  rcases pyInt t with _ | m
  · simp only [reduceCtorEq, iff_false]
    rcases pyFloat t with _ | x
    · simp only
      split_ifs <;> simp
    · simp
  · simp

/-- C83: the usual way of writing any integer is read as that integer. -/
theorem C83_int_repr (n : Nat) : castStrArg (Nat.toDigits 10 n) = .int n ∧ castStrArg ('-' :: Nat.toDigits 10 n) = .int (-n) := by
  have hd : ∀ c ∈ Nat.toDigits 10 n, IsDigit c := by
    intro c hc
    have := Nat.isDigit_of_mem_toDigits (by decide) (by decide) hc
    unfold Char.isDigit at this
    simp only [ge_iff_le, Bool.and_eq_true, decide_eq_true_eq] at this
    exact ⟨this.1, this.2⟩
  have hne : Nat.toDigits 10 n ≠ [] := by
    exact Nat.toDigits_ne_nil
  have hv : numeral (Nat.toDigits 10 n) = n := by
    rw [← digitsValue_eq _ hd]
    have hf : ∀ (l : Text) (acc : Nat), (∀ c ∈ l, IsDigit c) → l.foldl (fun acc c => 10 * acc + (digitVal c).getD 0) acc = l.foldl (fun acc c => 10 * acc + (c.toNat - '0'.toNat)) acc := by
      intro l
      induction l with
      | nil => intro _ _; rfl
      | cons c l ih =>
        intro acc hl
        rw [List.foldl_cons, List.foldl_cons, ih _ fun x hx => hl x (by simp [hx]), digitVal_of (hl c (by simp))]
        rfl
    unfold digitsValue
    rw [hf _ _ hd, ← Nat.ofDigitChars_eq_foldl, Nat.ofDigitChars_toDigits (by decide) (by decide)]
  have hs : ∀ c ∈ Nat.toDigits 10 n, isSpace c = false := fun c hc => (digit_chars (hd c hc)).2.1
  refine ⟨(C83_int _ _).2 ?_, (C83_int _ _).2 ?_⟩
  · refine ⟨[], [Nat.toDigits 10 n], by simp, by simpa using ⟨hne, hd⟩, ?_, .inr ⟨.inr rfl, by simp [hv]⟩⟩
    rw [strip_of_noSpace _ hs]
    simp [List.intercalate]
  · refine ⟨['-'], [Nat.toDigits 10 n], by simp, by simpa using ⟨hne, hd⟩, ?_, .inl ⟨rfl, by simp [hv]⟩⟩
    rw [strip_of_noSpace]
    · simp [List.intercalate]
    · intro c hc
      rcases List.mem_cons.1 hc with rfl | hc
      · decide
      · exact hs c hc

/-- C83: a decimal with a point or an exponent is read as that decimal. -/
theorem C83_float (t : Text) (neg : Bool) (m : Nat) (e : Int) (h : DecText t neg m e) (hp : '.' ∈ t ∨ 'e' ∈ t ∨ 'E' ∈ t) : castStrArg t = .float (.dec neg m e) := by
  have hint : pyInt t = none := by
    rcases hi : pyInt t with _ | n
    · rfl
    · have := intText_chars ((pyInt_iff t n).1 hi)
      rw [strip_of_noSpace t fun c hc => (decText_chars h c hc).2] at this
      rcases hp with hp | hp | hp <;> exact absurd (this _ hp) (by unfold IsDigit; decide)
  unfold castStrArg
  rw [hint, pyFloat_dec h]

/-- Non-vacuity of C83 for decimals: `-1.5e-3`. -/
example : DecText "-1.5e-3".toList true 15 (-4) :=
  ⟨['-'], "1.5".toList, "e-3".toList, _, _, .minus, .point "1".toList "5".toList (by unfold IsDigit; decide) (by unfold IsDigit; decide) (by decide), .minus 'e' "3".toList (.inl rfl) ⟨by decide, by unfold IsDigit; decide⟩,
    by decide, by decide⟩

theorem letter_chars {c : Char} (h : c.isAlpha = true) : isSpace c = false ∧ ¬ IsDigit c ∧ c ≠ '-' ∧ c ≠ '+' ∧ c ≠ '_' ∧ c ≠ '.' := by
  have h1 : (65 ≤ c.toNat ∧ c.toNat ≤ 90) ∨ (97 ≤ c.toNat ∧ c.toNat ≤ 122) := by
    unfold Char.isAlpha Char.isUpper Char.isLower at h
    simp only [ge_iff_le, Bool.or_eq_true, Bool.and_eq_true, decide_eq_true_eq] at h
    exact h
  have hne : ∀ d : Char, ¬ ((65 ≤ d.toNat ∧ d.toNat ≤ 90) ∨ (97 ≤ d.toNat ∧ d.toNat ≤ 122)) → c ≠ d := by
    rintro d hd rfl
    exact hd h1
  refine ⟨?_, ?_, hne _ (by decide), hne _ (by decide), hne _ (by decide), hne _ (by decide)⟩
  · unfold isSpace
    simp [hne ' ' (by decide), hne '\t' (by decide), hne '\n' (by decide), hne '\r' (by decide), hne (Char.ofNat 11) (by decide), hne (Char.ofNat 12) (by decide)]
  · rintro ⟨_, h3⟩
    have h3 : c.toNat ≤ 57 := h3
    omega

/-- A text starting with a letter, white space at its end dropped. -/
theorem strip_letter {c : Char} {r : Text} (h : c.isAlpha = true) : ∃ r', strip (c :: r) = c :: r' := by
  unfold strip
  rw [lstrip_cons r c (letter_chars h).1]
  unfold rstrip
  have : ∀ l : Text, ∃ l', (l ++ [c]).dropWhile isSpace = l' ++ [c] := by
    intro l
    induction l with
    | nil => exact ⟨[], by simp [(letter_chars h).1]⟩
    | cons x l ih =>
      by_cases hx : isSpace x = true
      · rw [List.cons_append, List.dropWhile_cons_of_pos hx]; exact ih
      · rw [List.cons_append, List.dropWhile_cons_of_neg hx]; exact ⟨x :: l, rfl⟩
  obtain ⟨l', hl'⟩ := this r.reverse
  exact ⟨l'.reverse, by rw [List.reverse_cons, hl']; simp⟩

theorem pyInt_letter {c : Char} {r : Text} (h : c.isAlpha = true) : pyInt (c :: r) = none := by
  obtain ⟨r', hr⟩ := strip_letter (r := r) h
  rcases hp : pyInt (c :: r) with _ | n
  · rfl
  · have := intText_chars ((pyInt_iff _ n).1 hp) c (by rw [hr]; simp)
    have hl := letter_chars h
    tauto

/-- Underscores are only dropped after digits. -/
theorem dropUnderscores_digit (t : Text) (prev : Option Char) (u : Text) (h : dropUnderscores prev t = some u) (hm : '_' ∈ t) : (∃ p, prev = some p ∧ IsDigit p) ∨ ∃ c ∈ u, IsDigit c := by
  induction t generalizing prev u with
  | nil => simp at hm
  | cons c t ih =>
    unfold dropUnderscores at h
    by_cases hc : c = '_'
    · rw [if_pos hc] at h
      split_ifs at h with hp
      rcases prev with _ | p
      · simp at hp
      · exact .inl ⟨p, rfl, digitVal_isSome.1 (by simpa using hp)⟩
    · rw [if_neg hc] at h
      split_ifs at h with hp
      rcases hr : dropUnderscores (some c) t with _ | r
      · rw [hr] at h; cases h
      · rw [hr] at h
        cases h
        have hm' : '_' ∈ t := by
          rcases List.mem_cons.1 hm with h | h
          · exact absurd h.symm hc
          · exact h
        rcases ih (some c) r hr hm' with ⟨p, hp, hd⟩ | ⟨x, hx, hd⟩
        · cases hp
          exact .inr ⟨c, by simp, hd⟩
        · exact .inr ⟨x, by simp [hx], hd⟩

theorem dropUnderscores_head {c : Char} {t : Text} {u : Text} (hc : c ≠ '_') (h : dropUnderscores none (c :: t) = some u) : ∃ r, u = c :: r := by
  unfold dropUnderscores at h
  rw [if_neg hc, if_neg (by simp)] at h
  rcases hr : dropUnderscores (some c) t with _ | r
  · rw [hr] at h; cases h
  · rw [hr] at h; cases h; exact ⟨r, rfl⟩

theorem pyFloat_letter {c : Char} {r : Text} (h : c.isAlpha = true) (hs : ∀ x ∈ c :: r, isSpace x = false) (hn : lower (c :: r) ∉ ["inf".toList, "infinity".toList, "nan".toList]) :
    pyFloat (c :: r) = none := by
  have hl := letter_chars h
  unfold pyFloat
  rw [strip_of_noSpace _ hs]
  rcases hu : dropUnderscores none (c :: r) with _ | u
  · rfl
  · have hlow : lower u ∉ ["inf".toList, "infinity".toList, "nan".toList] := by
      by_cases hm : '_' ∈ c :: r
      · rcases dropUnderscores_digit _ _ _ hu hm with ⟨p, hp, _⟩ | ⟨x, hx, hd⟩
        · cases hp
        · have hx' : x ∈ lower u := by
            unfold lower
            exact List.mem_map.2 ⟨x, hx, (digit_chars hd).2.2.2.2.2.2.2.1⟩
          intro hin
          have : ∀ w ∈ ["inf".toList, "infinity".toList, "nan".toList], ∀ y ∈ w, ¬ IsDigit y := by unfold IsDigit; decide
          exact this _ hin x hx' hd
      · rw [dropUnderscores_id _ none (by simp) hm] at hu
        cases hu
        exact hn
    obtain ⟨r', rfl⟩ := dropUnderscores_head hl.2.2.2.2.1 hu
    have hp : parseUnsigned false (c :: r') = none := by
      simp only [List.mem_cons, List.not_mem_nil, or_false, not_or] at hlow
      unfold parseUnsigned
      rw [if_neg (by rintro (h | h); exact hlow.1 h; exact hlow.2.1 h), if_neg hlow.2.2]
      have hsp : spanDigits (c :: r') = ([], c :: r') := by
        have := spanDigits_append [] (c :: r') (by simp) (by intro x hx; simp at hx; subst hx; exact hl.2.1)
        simpa using this
      have hfr : fraction (c :: r') = ([], c :: r') := by
        unfold fraction
        split
        · rename_i r'' he; exact absurd (List.cons.inj he).1 hl.2.2.2.2.2
        · rfl
      simp only [hsp, hfr, and_self, if_true]
    split
    · rfl
    · rename_i r'' he
      exact absurd (List.cons.inj (Option.some.inj he)).1 hl.2.2.1
    · rename_i r'' he
      exact absurd (List.cons.inj (Option.some.inj he)).1 hl.2.2.2.1
    · rename_i r'' _ _ he
      cases he
      exact hp

theorem alpha_of_toLower {c : Char} (h : c.toLower.isAlpha = true) : c.isAlpha = true := by
  unfold Char.toLower at h
  split_ifs at h with hc
  · unfold Char.isAlpha Char.isUpper
    simp only [ge_iff_le, Bool.or_eq_true, Bool.and_eq_true, decide_eq_true_eq]
    exact .inl hc
  · exact h

/-- C83: `true` and `false` in any spelling are booleans. -/
theorem C83_bool (t : Text) : (lower t = "true".toList → castStrArg t = .bool true) ∧ (lower t = "false".toList → castStrArg t = .bool false) := by
  have key : ∀ w : Text, w ≠ [] → (∀ x ∈ w, x.isAlpha = true) → w ∉ ["inf".toList, "infinity".toList, "nan".toList] → lower t = w → pyInt t = none ∧ pyFloat t = none := by
    intro w hne ha hw he
    have hat : ∀ x ∈ t, x.isAlpha = true := by
      intro x hx
      refine alpha_of_toLower (ha _ ?_)
      rw [← he]
      exact List.mem_map.2 ⟨x, hx, rfl⟩
    have htne : t ≠ [] := by
      rintro rfl
      exact hne he.symm
    obtain ⟨c, r, rfl⟩ := List.exists_cons_of_ne_nil htne
    have hc := hat c (by simp)
    exact ⟨pyInt_letter hc, pyFloat_letter hc (fun x hx => (letter_chars (hat x hx)).1) (by rw [he]; exact hw)⟩
  refine ⟨?_, ?_⟩ <;> intro h <;> unfold castStrArg
  · obtain ⟨h1, h2⟩ := key _ (by decide) (by decide) (by decide) h
    rw [h1, h2]
    simp only
    rw [if_pos h]
  · obtain ⟨h1, h2⟩ := key _ (by decide) (by decide) (by decide) h
    rw [h1, h2]
    simp only
    rw [if_neg (by rw [h]; decide), if_pos h]

/-- Non-vacuity of C83 for booleans. -/
example : lower "True".toList = "true".toList ∧ lower "FALSE".toList = "false".toList := by decide

/-- C83: everything else stays the text it is. In particular this holds for any text that starts with a letter, has no white space and is not a spelling of `true`, `false`, `inf`, `infinity`, `nan`. -/
theorem C83_str (t : Text) : (∀ s, castStrArg t = .str s → s = t ∧ (∀ n, ¬ IntText t n) ∧ lower t ≠ "true".toList ∧ lower t ≠ "false".toList) ∧
    ((∃ c r, t = c :: r ∧ c.isAlpha = true) → (∀ x ∈ t, isSpace x = false) → lower t ∉ ["true".toList, "false".toList, "inf".toList, "infinity".toList, "nan".toList] → castStrArg t = .str t) := by
  refine ⟨?_, ?_⟩
  · intro s h
    have hno : ∀ n, ¬ IntText t n := by
      intro n hn
      rw [(C83_int t n).2 hn] at h
      cases h
    have ht : lower t ≠ "true".toList := by
      intro h'
      rw [(C83_bool t).1 h'] at h
      cases h
    have hf : lower t ≠ "false".toList := by
      intro h'
      rw [(C83_bool t).2 h'] at h
      cases h
    refine ⟨?_, hno, ht, hf⟩
    unfold castStrArg at h
    split at h
    · cases h
    · split at h
      · cases h
      · rw [if_neg ht, if_neg hf] at h
        cases h
        rfl
  · rintro ⟨c, r, rfl, hc⟩ hs hn
    simp only [List.mem_cons, List.not_mem_nil, or_false, not_or] at hn
    unfold castStrArg
    rw [pyInt_letter hc, pyFloat_letter hc hs (by simp only [List.mem_cons, List.not_mem_nil, or_false, not_or]; exact hn.2.2)]
    simp only
    rw [if_neg hn.1, if_neg hn.2.1]

/-- Non-vacuity of C83 for texts. -/
example : (∃ c r, "rwalk".toList = c :: r ∧ c.isAlpha = true) ∧ (∀ x ∈ "rwalk".toList, isSpace x = false) ∧ lower "rwalk".toList ∉ ["true".toList, "false".toList, "inf".toList, "infinity".toList, "nan".toList] :=
  ⟨⟨'r', _, rfl, by decide⟩, by decide, by decide⟩

end Radvel
