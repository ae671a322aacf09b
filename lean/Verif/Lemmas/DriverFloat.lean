import Verif.Lemmas.Driver
import Verif.Lemmas.Status

/-! Helper lemmas for C83: integers and decimals. -/

namespace Radvel

theorem pyInt_iff (t : Text) (n : Int) : pyInt t = some n ↔ IntText t n := by
  have hscan : ∀ (r : Text) (m : Nat), scanInt 0 false r = some m ↔ ∃ gs : List Text, gs ≠ [] ∧ (∀ g ∈ gs, Digits g) ∧ r = List.intercalate ['_'] gs ∧ m = numeral gs.flatten := by
    intro r m
    refine Iff.trans (scanInt_iff r 0 m false) ?_
    simp
  have hhead : ∀ gs : List Text, gs ≠ [] → (∀ g ∈ gs, Digits g) → ∃ c r, IsDigit c ∧ List.intercalate ['_'] gs = c :: r := by
    intro gs hne h
    obtain ⟨g, gs', rfl⟩ := List.exists_cons_of_ne_nil hne
    have hg := h g (by simp)
    obtain ⟨x, g', rfl⟩ := List.exists_cons_of_ne_nil hg.1
    exact ⟨x, List.intercalate ['_'] (g' :: gs'), hg.2 x (by simp), by cases gs' <;> simp [List.intercalate]⟩
  unfold pyInt IntText
  generalize strip t = u
  have dm : ¬ IsDigit '-' := by unfold IsDigit; decide
  have dp : ¬ IsDigit '+' := by unfold IsDigit; decide
  split
  · rename_i r
    constructor
    · intro h
      rcases hs : scanInt 0 false r with _ | m
      · rw [hs] at h; cases h
      · rw [hs] at h
        have h := Option.some.inj h
        simp only at h
        obtain ⟨gs, h1, h2, h3, h4⟩ := (hscan r m).1 hs
        exact ⟨['-'], gs, h1, h2, by rw [h3]; rfl, .inl ⟨rfl, by rw [← h4, h]⟩⟩
    · rintro ⟨s, gs, h1, h2, h3, h4⟩
      rcases h4 with ⟨rfl, rfl⟩ | ⟨rfl | rfl, rfl⟩
      · have := (hscan r _).2 ⟨gs, h1, h2, (List.cons.inj h3).2, rfl⟩
        rw [this]; rfl
      · simp at h3
      · obtain ⟨c, r', hc, he⟩ := hhead gs h1 h2
        rw [List.nil_append, he] at h3
        exact absurd ((List.cons.inj h3).1 ▸ hc) dm
  · rename_i r
    constructor
    · intro h
      rcases hs : scanInt 0 false r with _ | m
      · rw [hs] at h; cases h
      · rw [hs] at h
        have h := Option.some.inj h
        simp only at h
        obtain ⟨gs, h1, h2, h3, h4⟩ := (hscan r m).1 hs
        exact ⟨['+'], gs, h1, h2, by rw [h3]; rfl, .inr ⟨.inl rfl, by rw [← h4, h]⟩⟩
    · rintro ⟨s, gs, h1, h2, h3, h4⟩
      rcases h4 with ⟨rfl, rfl⟩ | ⟨rfl | rfl, rfl⟩
      · simp at h3
      · have := (hscan r _).2 ⟨gs, h1, h2, (List.cons.inj h3).2, rfl⟩
        rw [this]; rfl
      · obtain ⟨c, r', hc, he⟩ := hhead gs h1 h2
        rw [List.nil_append, he] at h3
        exact absurd ((List.cons.inj h3).1 ▸ hc) dp
  · rename_i r hm hp
    constructor
    · intro h
      rcases hs : scanInt 0 false u with _ | m
      · rw [hs] at h; cases h
      · rw [hs] at h
        have h := Option.some.inj h
        simp only at h
        obtain ⟨gs, h1, h2, h3, h4⟩ := (hscan u m).1 hs
        exact ⟨[], gs, h1, h2, by rw [h3]; rfl, .inr ⟨.inr rfl, by rw [← h4, h]⟩⟩
    · rintro ⟨s, gs, h1, h2, h3, h4⟩
      rcases h4 with ⟨rfl, rfl⟩ | ⟨rfl | rfl, rfl⟩
      · exact absurd h3 (hm _)
      · exact absurd h3 (hp _)
      · have := (hscan u _).2 ⟨gs, h1, h2, h3, rfl⟩
        rw [this]; rfl

theorem spanDigits_append (d r : Text) (hd : ∀ c ∈ d, IsDigit c) (hr : ∀ c ∈ r.head?, ¬ IsDigit c) : spanDigits (d ++ r) = (d, r) := by
  unfold spanDigits
  rw [List.span_eq_takeWhile_dropWhile]
  have h1 : ∀ c ∈ d, (digitVal c).isSome = true := fun c hc => digitVal_isSome.2 (hd c hc)
  rw [List.takeWhile_append_of_pos h1, List.dropWhile_append_of_pos h1]
  cases r with
  | nil => simp
  | cons c r =>
    have : ¬ (digitVal c).isSome = true := fun h => hr c (by simp) (digitVal_isSome.1 h)
    rw [List.takeWhile_cons_of_neg (p := fun c => (digitVal c).isSome) this, List.dropWhile_cons_of_neg (p := fun c => (digitVal c).isSome) this, List.append_nil]

theorem spanDigits_all (d : Text) (hd : ∀ c ∈ d, IsDigit c) : spanDigits d = (d, []) := by
  have := spanDigits_append d [] hd (by simp)
  simpa using this

theorem dropUnderscores_id (t : Text) (prev : Option Char) (hp : prev ≠ some '_') (h : '_' ∉ t) : dropUnderscores prev t = some t := by
  induction t generalizing prev with
  | nil => simp [dropUnderscores, hp]
  | cons c t ih =>
    simp only [List.mem_cons, not_or] at h
    unfold dropUnderscores
    rw [if_neg (Ne.symm h.1), if_neg (by intro h'; exact hp h'.1), ih (some c) (by intro h'; exact h.1 (Option.some.inj h').symm) h.2]
    rfl

theorem digit_chars {c : Char} (h : IsDigit c) : c ≠ '_' ∧ isSpace c = false ∧ c ≠ '-' ∧ c ≠ '+' ∧ c ≠ '.' ∧ c ≠ 'e' ∧ c ≠ 'E' ∧ c.toLower = c ∧ c ≠ 'i' ∧ c ≠ 'n' := by
  have h1 : 48 ≤ c.toNat := h.1
  have h2 : c.toNat ≤ 57 := h.2
  have hne : ∀ d : Char, (d.toNat < 48 ∨ 57 < d.toNat) → c ≠ d := by
    rintro d hd rfl
    omega
  refine ⟨hne _ (by decide), ?_, hne _ (by decide), hne _ (by decide), hne _ (by decide), hne _ (by decide), hne _ (by decide), ?_, hne _ (by decide), hne _ (by decide)⟩
  · unfold isSpace
    simp [hne ' ' (by decide), hne '\t' (by decide), hne '\n' (by decide), hne '\r' (by decide), hne (Char.ofNat 11) (by decide), hne (Char.ofNat 12) (by decide)]
  · unfold Char.toLower
    have : ¬ (65 ≤ c.toNat) := by omega
    rw [dif_neg]
    intro h'
    have : (65 : UInt32) ≤ c.val := h'.1
    have h3 : (65 : UInt32).toNat ≤ c.val.toNat := UInt32.le_iff_toNat_le.1 this
    have h4 : c.val.toNat = c.toNat := rfl
    have h5 : (65 : UInt32).toNat = 65 := rfl
    omega

theorem exponent_head {x : Text} {j : Int} (h : ExponentText x j) : ∀ c ∈ x.head?, ¬ IsDigit c ∧ c ≠ '.' := by
  have : ∀ c : Char, c = 'e' ∨ c = 'E' → ¬ IsDigit c ∧ c ≠ '.' := by
    rintro c (rfl | rfl) <;> exact ⟨by unfold IsDigit; decide, by decide⟩
  cases h <;> simp <;> exact this _ (by assumption)

theorem parseExponent_eq {x : Text} {j : Int} (h : ExponentText x j) : parseExponent x = some j := by
  cases h with
  | none => rfl
  | bare c x hc hx =>
    unfold parseExponent
    simp only
    rw [if_pos hc]
    obtain ⟨a, r, rfl⟩ := List.exists_cons_of_ne_nil hx.1
    have ha := digit_chars (hx.2 a (by simp))
    split
    · rename_i r' he; exact absurd (List.cons.inj he).1 ha.2.2.1
    · rename_i r' he; exact absurd (List.cons.inj he).1 ha.2.2.2.1
    · rw [if_pos ⟨hx.1, by rw [spanDigits_all _ hx.2]⟩, digitsValue_eq _ hx.2]
  | plus c x hc hx =>
    unfold parseExponent
    simp only
    rw [if_pos hc]
    rw [if_pos ⟨hx.1, by rw [spanDigits_all _ hx.2]⟩, digitsValue_eq _ hx.2]
  | minus c x hc hx =>
    unfold parseExponent
    simp only
    rw [if_pos hc]
    rw [if_pos ⟨hx.1, by rw [spanDigits_all _ hx.2]⟩, digitsValue_eq _ hx.2]

theorem mantissa_head {a : Text} {m : Nat} {i : Int} (h : MantissaText a m i) : ∃ c r, a = c :: r ∧ (IsDigit c ∨ c = '.') := by
  cases h with
  | whole a ha =>
    obtain ⟨c, r, rfl⟩ := List.exists_cons_of_ne_nil ha.1
    exact ⟨c, r, rfl, .inl (ha.2 c (by simp))⟩
  | point a b ha hb hab =>
    cases a with
    | nil => exact ⟨'.', b, rfl, .inr rfl⟩
    | cons c a => exact ⟨c, a ++ '.' :: b, rfl, .inl (ha c (by simp))⟩

theorem parseUnsigned_eq {a x : Text} {m : Nat} {i j : Int} (neg : Bool) (ha : MantissaText a m i) (hx : ExponentText x j) : parseUnsigned neg (a ++ x) = some (.dec neg m (i + j)) := by
  obtain ⟨c, r, hcr, hc⟩ := mantissa_head ha
  have hlow : lower (a ++ x) ≠ "inf".toList ∧ lower (a ++ x) ≠ "infinity".toList ∧ lower (a ++ x) ≠ "nan".toList := by
    have : c.toLower = c ∧ c ≠ 'i' ∧ c ≠ 'n' := by
      rcases hc with h | rfl
      · exact ⟨(digit_chars h).2.2.2.2.2.2.2.1, (digit_chars h).2.2.2.2.2.2.2.2.1, (digit_chars h).2.2.2.2.2.2.2.2.2⟩
      · decide
    refine ⟨?_, ?_, ?_⟩ <;> intro h <;> rw [hcr] at h <;> simp only [lower, List.cons_append, List.map_cons, this.1] at h
    · exact this.2.1 (List.cons.inj h).1
    · exact this.2.1 (List.cons.inj h).1
    · exact this.2.2 (List.cons.inj h).1
  unfold parseUnsigned
  rw [if_neg (by rintro (h | h); exact hlow.1 h; exact hlow.2.1 h), if_neg hlow.2.2]
  cases ha with
  | whole a ha =>
    simp only
    rw [spanDigits_append a x ha.2 fun c hc => (exponent_head hx c hc).1]
    have hf : fraction x = ([], x) := by
      cases hx with
      | none => rfl
      | bare c _ hc _ => rcases hc with rfl | rfl <;> rfl
      | plus c _ hc _ => rcases hc with rfl | rfl <;> rfl
      | minus c _ hc _ => rcases hc with rfl | rfl <;> rfl
    simp only [hf]
    rw [if_neg (by intro h; exact ha.1 h.1), parseExponent_eq hx]
    simp [digitsValue_eq a ha.2]
  | point a b ha hb hab =>
    simp only
    rw [List.append_assoc, List.cons_append, spanDigits_append a _ ha (by intro c hc; simp at hc; subst hc; unfold IsDigit; decide)]
    simp only [fraction]
    rw [spanDigits_append b x hb fun c hc => (exponent_head hx c hc).1]
    simp only
    rw [if_neg (by intro h; exact hab (by rw [h.1, h.2]; rfl)), parseExponent_eq hx, digitsValue_eq (a ++ b) (by
      intro c hc
      rcases List.mem_append.1 hc with h | h
      · exact ha c h
      · exact hb c h)]
    simp
    omega

/-- The characters of a decimal. -/
theorem decText_chars {t : Text} {neg : Bool} {m : Nat} {e : Int} (h : DecText t neg m e) : ∀ c ∈ t, c ≠ '_' ∧ isSpace c = false := by
  have hd : ∀ c, IsDigit c → c ≠ '_' ∧ isSpace c = false := fun c hc => ⟨(digit_chars hc).1, (digit_chars hc).2.1⟩
  obtain ⟨s, a, x, i, j, hs, ha, hx, rfl, rfl⟩ := h
  intro c hc
  rcases List.mem_append.1 hc with hc | hc
  · cases hs <;> simp at hc <;> subst hc <;> decide
  rcases List.mem_append.1 hc with hc | hc
  · cases ha with
    | whole a ha => exact hd c (ha.2 c hc)
    | point a b ha hb hab =>
      rcases List.mem_append.1 hc with hc | hc
      · exact hd c (ha c hc)
      · rcases List.mem_cons.1 hc with rfl | hc
        · decide
        · exact hd c (hb c hc)
  · have he : ∀ c : Char, c = 'e' ∨ c = 'E' → c ≠ '_' ∧ isSpace c = false := by rintro c (rfl | rfl) <;> decide
    cases hx with
    | none => simp at hc
    | bare c' x hc' hx =>
      rcases List.mem_cons.1 hc with rfl | hc
      · exact he _ hc'
      · exact hd c (hx.2 c hc)
    | plus c' x hc' hx =>
      rcases List.mem_cons.1 hc with rfl | hc
      · exact he _ hc'
      · rcases List.mem_cons.1 hc with rfl | hc
        · decide
        · exact hd c (hx.2 c hc)
    | minus c' x hc' hx =>
      rcases List.mem_cons.1 hc with rfl | hc
      · exact he _ hc'
      · rcases List.mem_cons.1 hc with rfl | hc
        · decide
        · exact hd c (hx.2 c hc)

theorem strip_of_noSpace (t : Text) (h : ∀ c ∈ t, isSpace c = false) : strip t = t := by
  have hl : ∀ u : Text, (∀ c ∈ u, isSpace c = false) → u.dropWhile isSpace = u := by
    intro u hu
    cases u with
    | nil => rfl
    | cons c u => rw [List.dropWhile_cons_of_neg (by rw [hu c (by simp)]; simp)]
  unfold strip lstrip rstrip
  rw [hl t h, hl t.reverse (by intro c hc; exact h c (by simpa using hc)), List.reverse_reverse]

theorem pyFloat_dec {t : Text} {neg : Bool} {m : Nat} {e : Int} (h : DecText t neg m e) : pyFloat t = some (.dec neg m e) := by
  have hch := decText_chars h
  unfold pyFloat
  rw [strip_of_noSpace t fun c hc => (hch c hc).2, dropUnderscores_id t none (by simp) fun hm => (hch _ hm).1 rfl]
  obtain ⟨s, a, x, i, j, hs, ha, hx, rfl, rfl⟩ := h
  have := parseUnsigned_eq neg ha hx
  cases hs with
  | minus => exact this
  | plus => exact this
  | none =>
    obtain ⟨c, r, hcr, hc⟩ := mantissa_head ha
    have hc' : c ≠ '-' ∧ c ≠ '+' := by
      rcases hc with h | rfl
      · exact ⟨(digit_chars h).2.2.1, (digit_chars h).2.2.2.1⟩
      · decide
    rw [List.nil_append]
    split
    · rename_i h; cases h
    · rename_i r' h
      rw [hcr] at h
      exact absurd (List.cons.inj (Option.some.inj h)).1 hc'.1
    · rename_i r' h
      rw [hcr] at h
      exact absurd (List.cons.inj (Option.some.inj h)).1 hc'.2
    · rename_i r' _ _ h
      cases h
      exact this

theorem intText_chars {t : Text} {n : Int} (h : IntText t n) : ∀ c ∈ strip t, IsDigit c ∨ c = '_' ∨ c = '-' ∨ c = '+' := by
  obtain ⟨s, gs, _, h2, h3, h4⟩ := h
  have hin : ∀ gs : List Text, (∀ g ∈ gs, Digits g) → ∀ c ∈ List.intercalate ['_'] gs, IsDigit c ∨ c = '_' := by
    intro gs
    induction gs with
    | nil => intro _ c hc; simp [List.intercalate] at hc
    | cons g gs ih =>
      intro h c hc
      cases gs with
      | nil => simp [List.intercalate] at hc; exact .inl ((h g (by simp)).2 c hc)
      | cons b gs =>
        have : List.intercalate ['_'] (g :: b :: gs) = g ++ '_' :: List.intercalate ['_'] (b :: gs) := by simp [List.intercalate]
        rw [this] at hc
        rcases List.mem_append.1 hc with hc | hc
        · exact .inl ((h g (by simp)).2 c hc)
        · rcases List.mem_cons.1 hc with rfl | hc
          · exact .inr rfl
          · exact ih (fun x hx => h x (by simp [hx])) c hc
  intro c hc
  rw [h3] at hc
  rcases List.mem_append.1 hc with hc | hc
  · rcases h4 with ⟨rfl, _⟩ | ⟨rfl | rfl, _⟩ <;> simp at hc <;> simp [hc]
  · rcases hin gs h2 c hc with h | h <;> simp [h]

end Radvel
