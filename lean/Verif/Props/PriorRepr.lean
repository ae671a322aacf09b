import Verif.Model.PriorRepr
import Verif.Lemmas.ReportDerived
import Verif.Lemmas.Crit

/-!
# C180: what a printed posterior says about its priors
-/

namespace Radvel

/-- What a reader of the printed priors learns, line by line. -/
inductive Seen
  | gaussian (param mu sigma : Text)
  | ecc (planet : Nat) (limit : Text)
  | posK
  | hardBounds (param minval maxval : Text)
  | secEclipse (ts tsErr : Text)
  | jeffreys (param minval maxval : Text)
  | modJeffreys (param minval maxval kneeval : Text)
  | numerical (paramList : Text)
  | user (paramList : Text)
  | baseline (param baseline duration : Text)
  | blank

/-- The lines of one prior: an eccentricity prior has one for each planet, and an empty one without planets. Not seen: how many planets have positive amplitudes, which planet is eclipsed, samples and functions. -/
def PriorAttrs.seen : PriorAttrs → List Seen
  | .gaussian p m s => [.gaussian p m s]
  | .ecc [] => [.blank]
  | .ecc (x :: l) => (x :: l).map fun y => .ecc y.1 y.2
  | .posK _ => [.posK]
  | .hardBounds p a b => [.hardBounds p a b]
  | .secEclipse _ ts e => [.secEclipse ts e]
  | .jeffreys p a b => [.jeffreys p a b]
  | .modJeffreys p a b k => [.modJeffreys p a b k]
  | .numerical ps _ => [.numerical ps]
  | .user ps _ => [.user ps]
  | .baseline p b d => [.baseline p b d]

/-- A name or a number: no comma, no blank, no end of line. -/
def PlainWord (t : Text) : Prop := ',' ∉ t ∧ ' ' ∉ t ∧ '\n' ∉ t

/-- Names and numbers of the prior are plain; lists of names have no end of line. -/
def PriorAttrs.Plain : PriorAttrs → Prop
  | .gaussian p m s => PlainWord p ∧ PlainWord m ∧ PlainWord s
  | .ecc l => ∀ x ∈ l, PlainWord x.2
  | .posK _ => True
  | .hardBounds p a b => PlainWord p ∧ PlainWord a ∧ PlainWord b
  | .secEclipse _ ts e => PlainWord ts ∧ PlainWord e
  | .jeffreys p a b => PlainWord p ∧ PlainWord a ∧ PlainWord b
  | .modJeffreys p a b k => PlainWord p ∧ PlainWord a ∧ PlainWord b ∧ PlainWord k
  | .numerical ps _ => '\n' ∉ ps
  | .user ps _ => '\n' ∉ ps
  | .baseline p b d => PlainWord p ∧ PlainWord b ∧ PlainWord d

/-- The same for a line. -/
def Seen.Plain : Seen → Prop
  | .gaussian p m s => PlainWord p ∧ PlainWord m ∧ PlainWord s
  | .ecc _ l => PlainWord l
  | .posK => True
  | .hardBounds p a b => PlainWord p ∧ PlainWord a ∧ PlainWord b
  | .secEclipse ts e => PlainWord ts ∧ PlainWord e
  | .jeffreys p a b => PlainWord p ∧ PlainWord a ∧ PlainWord b
  | .modJeffreys p a b k => PlainWord p ∧ PlainWord a ∧ PlainWord b ∧ PlainWord k
  | .numerical ps => '\n' ∉ ps
  | .user ps => '\n' ∉ ps
  | .baseline p b d => PlainWord p ∧ PlainWord b ∧ PlainWord d
  | .blank => True

/-- The text of a line. -/
def seenLine : Seen → Text
  | .gaussian p m s => "Gaussian prior on ".toList ++ (p ++ ',' :: (" mu=".toList ++ (m ++ ',' :: (" sigma=".toList ++ s))))
  | .ecc n l => 'e' :: (digits n ++ ' ' :: ("constrained to be < ".toList ++ l))
  | .posK => "K constrained to be > 0".toList
  | .hardBounds p a b => "Bounded prior on ".toList ++ (p ++ ',' :: (" min=".toList ++ (a ++ ',' :: (" max=".toList ++ b))))
  | .secEclipse ts e => "secondary eclipse constraint: ".toList ++ (ts ++ ' ' :: ("+/- ".toList ++ e))
  | .jeffreys p a b => "Jeffrey's prior on ".toList ++ (p ++ ',' :: (" min=".toList ++ (a ++ ',' :: (" max=".toList ++ b))))
  | .modJeffreys p a b k => "Modified Jeffrey's prior on ".toList ++ (p ++ ',' :: (" knee=".toList ++ (k ++ ',' :: (" min=".toList ++ (a ++ ',' :: (" max=".toList ++ b))))))
  | .numerical ps => "Numerical prior on ".toList ++ ps
  | .user ps => "User-defined prior on ".toList ++ ps
  | .baseline p b d => "Informative baseline prior on ".toList ++ (p ++ ',' :: (" baseline=".toList ++ (b ++ ',' :: (" duration=".toList ++ d))))
  | .blank => []

theorem cut_inj {sep : Char} : ∀ {a a' r r' : Text}, sep ∉ a → sep ∉ a' → a ++ sep :: r = a' ++ sep :: r' → a = a' ∧ r = r'
  | [], [], r, r', _, _, h => by simpa using h
  | [], c :: a', r, r', _, h2, h => by
    simp only [List.nil_append, List.cons_append, List.cons.injEq] at h
    exact absurd (by simp [h.1]) h2
  | c :: a, [], r, r', h1, _, h => by
    simp only [List.nil_append, List.cons_append, List.cons.injEq] at h
    exact absurd (by simp [h.1]) h1
  | c :: a, c' :: a', r, r', h1, h2, h => by
    simp only [List.cons_append, List.cons.injEq] at h
    obtain ⟨h3, h4⟩ := cut_inj (fun hm => h1 (by simp [hm])) (fun hm => h2 (by simp [hm])) h.2
    exact ⟨by rw [h.1, h3], h4⟩

theorem three_inj {x y : Text} {p m s p' m' s' : Text} (h1 : ',' ∉ p) (h1' : ',' ∉ p') (h2 : ',' ∉ m) (h2' : ',' ∉ m')
    (h : p ++ ',' :: (x ++ (m ++ ',' :: (y ++ s))) = p' ++ ',' :: (x ++ (m' ++ ',' :: (y ++ s')))) : p = p' ∧ m = m' ∧ s = s' := by
  obtain ⟨a, h⟩ := cut_inj h1 h1' h
  obtain ⟨b, h⟩ := cut_inj h2 h2' (List.append_cancel_left h)
  exact ⟨a, b, List.append_cancel_left h⟩

theorem three_line {x y p m s : Text} (hx : '\n' ∉ x) (hy : '\n' ∉ y) (h1 : '\n' ∉ p) (h2 : '\n' ∉ m) (h3 : '\n' ∉ s) : '\n' ∉ p ++ ',' :: (x ++ (m ++ ',' :: (y ++ s))) := by
  simp [hx, hy, h1, h2, h3]

theorem digits_no (n : Nat) (c : Char) (hc : c.isDigit = false) : c ∉ digits n := by
  intro h
  rw [digits_isDigit n c h] at hc
  cases hc

/-- The first character of a line. -/
def seenHead : Seen → Option Char
  | .gaussian .. => some 'G'
  | .ecc .. => some 'e'
  | .posK => some 'K'
  | .hardBounds .. => some 'B'
  | .secEclipse .. => some 's'
  | .jeffreys .. => some 'J'
  | .modJeffreys .. => some 'M'
  | .numerical _ => some 'N'
  | .user _ => some 'U'
  | .baseline .. => some 'I'
  | .blank => none

theorem seenLine_head (a : Seen) : (seenLine a).head? = seenHead a := by cases a <;> rfl

theorem seenLine_inj {a b : Seen} (ha : a.Plain) (hb : b.Plain) (h : seenLine a = seenLine b) : a = b := by
  have h0 : seenHead a = seenHead b := by rw [← seenLine_head, ← seenLine_head, h]
  cases a <;> cases b <;> first | (exfalso; exact absurd h0 (by simp only [seenHead]; decide)) | skip
  case gaussian.gaussian =>
    obtain ⟨rfl, rfl, rfl⟩ := three_inj ha.1.1 hb.1.1 ha.2.1.1 hb.2.1.1 (List.append_cancel_left h)
    rfl
  case ecc.ecc =>
    obtain ⟨h1, h2⟩ := cut_inj (digits_no _ ' ' (by decide)) (digits_no _ ' ' (by decide)) (List.cons.inj h).2
    rw [digits_inj _ _ h1, List.append_cancel_left h2]
  case posK.posK => rfl
  case hardBounds.hardBounds =>
    obtain ⟨rfl, rfl, rfl⟩ := three_inj ha.1.1 hb.1.1 ha.2.1.1 hb.2.1.1 (List.append_cancel_left h)
    rfl
  case secEclipse.secEclipse =>
    obtain ⟨rfl, h2⟩ := cut_inj ha.1.2.1 hb.1.2.1 (List.append_cancel_left h)
    rw [List.append_cancel_left h2]
  case jeffreys.jeffreys =>
    obtain ⟨rfl, rfl, rfl⟩ := three_inj ha.1.1 hb.1.1 ha.2.1.1 hb.2.1.1 (List.append_cancel_left h)
    rfl
  case modJeffreys.modJeffreys =>
    obtain ⟨rfl, h2⟩ := cut_inj ha.1.1 hb.1.1 (List.append_cancel_left h)
    obtain ⟨rfl, rfl, rfl⟩ := three_inj ha.2.2.2.1 hb.2.2.2.1 ha.2.1.1 hb.2.1.1 (List.append_cancel_left h2)
    rfl
  case numerical.numerical => rw [List.append_cancel_left h]
  case user.user => rw [List.append_cancel_left h]
  case baseline.baseline =>
    obtain ⟨rfl, rfl, rfl⟩ := three_inj ha.1.1 hb.1.1 ha.2.1.1 hb.2.1.1 (List.append_cancel_left h)
    rfl
  case blank.blank => rfl

theorem seenLine_line {a : Seen} (ha : a.Plain) : '\n' ∉ seenLine a := by
  intro h
  cases a with
  | posK => exact absurd h (by decide)
  | blank => cases h
  | gaussian p m s =>
    rcases List.mem_append.1 h with h | h
    · exact absurd h (by decide)
    · exact three_line (by decide) (by decide) ha.1.2.2 ha.2.1.2.2 ha.2.2.2.2 h
  | ecc n l =>
    rcases List.mem_cons.1 h with h | h
    · exact absurd h (by decide)
    · rcases List.mem_append.1 h with h | h
      · exact digits_no n '\n' (by decide) h
      · rcases List.mem_cons.1 h with h | h
        · exact absurd h (by decide)
        · rcases List.mem_append.1 h with h | h
          · exact absurd h (by decide)
          · exact ha.2.2 h
  | hardBounds p m s =>
    rcases List.mem_append.1 h with h | h
    · exact absurd h (by decide)
    · exact three_line (by decide) (by decide) ha.1.2.2 ha.2.1.2.2 ha.2.2.2.2 h
  | secEclipse ts e =>
    rcases List.mem_append.1 h with h | h
    · exact absurd h (by decide)
    · rcases List.mem_append.1 h with h | h
      · exact ha.1.2.2 h
      · rcases List.mem_cons.1 h with h | h
        · exact absurd h (by decide)
        · rcases List.mem_append.1 h with h | h
          · exact absurd h (by decide)
          · exact ha.2.2.2 h
  | jeffreys p m s =>
    rcases List.mem_append.1 h with h | h
    · exact absurd h (by decide)
    · exact three_line (by decide) (by decide) ha.1.2.2 ha.2.1.2.2 ha.2.2.2.2 h
  | modJeffreys p a b k =>
    rcases List.mem_append.1 h with h | h
    · exact absurd h (by decide)
    · rcases List.mem_append.1 h with h | h
      · exact ha.1.2.2 h
      · rcases List.mem_cons.1 h with h | h
        · exact absurd h (by decide)
        · rcases List.mem_append.1 h with h | h
          · exact absurd h (by decide)
          · exact three_line (by decide) (by decide) ha.2.2.2.2.2 ha.2.1.2.2 ha.2.2.1.2.2 h
  | numerical ps =>
    rcases List.mem_append.1 h with h | h
    · exact absurd h (by decide)
    · exact ha h
  | user ps =>
    rcases List.mem_append.1 h with h | h
    · exact absurd h (by decide)
    · exact ha h
  | baseline p m s =>
    rcases List.mem_append.1 h with h | h
    · exact absurd h (by decide)
    · exact three_line (by decide) (by decide) ha.1.2.2 ha.2.1.2.2 ha.2.2.2.2 h

/-- Lines, each with its end. -/
def textOf : List Seen → Text
  | [] => []
  | a :: l => seenLine a ++ '\n' :: textOf l

theorem textOf_append : ∀ l l' : List Seen, textOf (l ++ l') = textOf l ++ textOf l'
  | [], _ => rfl
  | a :: l, l' => by
    show seenLine a ++ '\n' :: textOf (l ++ l') = (seenLine a ++ '\n' :: textOf l) ++ textOf l'
    rw [textOf_append l l', List.append_assoc, List.cons_append]

theorem textOf_one (a : Seen) : textOf [a] = seenLine a ++ ['\n'] := rfl

theorem textOf_nil {a : Seen} {l : List Seen} : textOf (a :: l) ≠ [] := by
  intro h
  have h1 : '\n' ∈ textOf (a :: l) := List.mem_append.2 (.inr (by exact List.mem_cons_self ..))
  rw [h] at h1
  cases h1

theorem textOf_inj : ∀ {ls ls' : List Seen}, (∀ a ∈ ls, a.Plain) → (∀ a ∈ ls', a.Plain) → textOf ls = textOf ls' → ls = ls'
  | [], [], _, _, _ => rfl
  | [], a :: l, _, _, h => absurd h.symm textOf_nil
  | a :: l, [], _, _, h => absurd h textOf_nil
  | a :: l, b :: l', h1, h2, h => by
    obtain ⟨h4, h5⟩ := cut_inj (seenLine_line (h1 a (List.mem_cons_self ..))) (seenLine_line (h2 b (List.mem_cons_self ..))) h
    rw [seenLine_inj (h1 a (List.mem_cons_self ..)) (h2 b (List.mem_cons_self ..)) h4,
      textOf_inj (fun x hx => h1 x (List.mem_cons_of_mem _ hx)) (fun x hx => h2 x (List.mem_cons_of_mem _ hx)) h5]

theorem seen_plain {p : PriorAttrs} (h : p.Plain) : ∀ a ∈ p.seen, a.Plain := by
  cases p with
  | ecc l =>
    cases l with
    | nil => simp [PriorAttrs.seen, Seen.Plain]
    | cons x l =>
      intro a ha
      obtain ⟨y, hy, rfl⟩ := List.mem_map.1 ha
      exact h y hy
  | posK n => simp [PriorAttrs.seen, Seen.Plain]
  | _ => simpa [PriorAttrs.seen, Seen.Plain, PriorAttrs.Plain] using h

theorem eccRepr_text (l : List (Nat × Text)) : (l.map eccReprLine).flatten = textOf (l.map fun y => .ecc y.1 y.2) := by
  induction l with
  | nil => rfl
  | cons x l ih =>
    rw [List.map_cons, List.flatten_cons, ih, List.map_cons, eccReprLine]
    repeat rw [List.append_assoc]
    show _ = ('e' :: (digits x.1 ++ ' ' :: ("constrained to be < ".toList ++ x.2))) ++ '\n' :: _
    rw [List.cons_append, List.append_assoc, List.cons_append, List.append_assoc]
    rfl

theorem textOf_end (l : List Seen) (a : Seen) : (textOf (a :: l)).dropLast ++ ['\n'] = textOf (a :: l) := by
  have h : ∃ t, textOf (a :: l) = t ++ ['\n'] := by
    induction l generalizing a with
    | nil => exact ⟨seenLine a, rfl⟩
    | cons b l ih =>
      obtain ⟨t, ht⟩ := ih b
      refine ⟨seenLine a ++ '\n' :: t, ?_⟩
      show seenLine a ++ '\n' :: textOf (b :: l) = _
      rw [ht, List.append_assoc, List.cons_append]
  obtain ⟨t, ht⟩ := h
  rw [ht, List.dropLast_concat]

theorem three_text (x y z p m s : Text) : x ++ p ++ (',' :: y) ++ m ++ (',' :: z) ++ s = x ++ (p ++ ',' :: (y ++ (m ++ ',' :: (z ++ s)))) := by
  simp only [List.append_assoc, List.cons_append]

theorem priorRepr_text (p : PriorAttrs) : priorRepr p ++ ['\n'] = textOf p.seen := by
  cases p with
  | ecc l =>
    cases l with
    | nil => rfl
    | cons x l =>
      show ((x :: l).map eccReprLine).flatten.dropLast ++ ['\n'] = _
      rw [eccRepr_text]
      exact textOf_end _ _
  | secEclipse n ts e =>
    have h : ∀ t : Text, (t ++ "\n".toList).dropLast = t := fun t => List.dropLast_concat
    have h2 : ∀ x y : Text, x ++ ts ++ (' ' :: y) ++ e = x ++ (ts ++ ' ' :: (y ++ e)) := by intro x y; simp only [List.append_assoc, List.cons_append]
    show ("secondary eclipse constraint: ".toList ++ ts ++ " +/- ".toList ++ e ++ "\n".toList).dropLast ++ ['\n'] = _
    rw [h]
    exact congrArg (· ++ ['\n']) (h2 "secondary eclipse constraint: ".toList "+/- ".toList)
  | gaussian p m s => exact congrArg (· ++ ['\n']) (three_text "Gaussian prior on ".toList " mu=".toList " sigma=".toList p m s)
  | hardBounds p m s => exact congrArg (· ++ ['\n']) (three_text "Bounded prior on ".toList " min=".toList " max=".toList p m s)
  | jeffreys p m s => exact congrArg (· ++ ['\n']) (three_text "Jeffrey's prior on ".toList " min=".toList " max=".toList p m s)
  | baseline p m s => exact congrArg (· ++ ['\n']) (three_text "Informative baseline prior on ".toList " baseline=".toList " duration=".toList p m s)
  | modJeffreys p a b k =>
    refine congrArg (· ++ ['\n']) ((three_text ("Modified Jeffrey's prior on ".toList ++ p ++ (',' :: " knee=".toList)) " min=".toList " max=".toList k a b).trans ?_)
    rw [List.append_assoc, List.append_assoc, List.cons_append]
    rfl
  | posK n => rfl
  | numerical ps k => rfl
  | user ps k => rfl

theorem postRepr_text (like : Text) (ps : List PriorAttrs) : postRepr like ps = like ++ "\nPriors\n".toList ++ "------\n".toList ++ textOf (ps.flatMap PriorAttrs.seen) := by
  have h : ∀ (ps : List PriorAttrs) (s : Text), ps.foldl (fun s p => s ++ priorRepr p ++ "\n".toList) s = s ++ textOf (ps.flatMap PriorAttrs.seen) := by
    intro ps
    induction ps with
    | nil => intro s; exact (List.append_nil s).symm
    | cons p ps ih =>
      intro s
      rw [List.foldl_cons, ih, List.append_assoc s, List.flatMap_cons, textOf_append, ← priorRepr_text, ← List.append_assoc, ← List.append_assoc, ← List.append_assoc]
      rfl
  rw [postRepr, h]

/-- C180, exactly: two lists of priors are printed alike if and only if the same is seen of them, line by line. -/
theorem C180_exact (like : Text) (ps qs : List PriorAttrs) (hp : ∀ p ∈ ps, p.Plain) (hq : ∀ q ∈ qs, q.Plain) :
    postRepr like ps = postRepr like qs ↔ ps.flatMap PriorAttrs.seen = qs.flatMap PriorAttrs.seen := by
  rw [postRepr_text, postRepr_text]
  constructor
  · intro h
    refine textOf_inj ?_ ?_ (List.append_cancel_left h)
    · intro a ha
      obtain ⟨p, h1, h2⟩ := List.mem_flatMap.1 ha
      exact seen_plain (hp p h1) a h2
    · intro a ha
      obtain ⟨p, h1, h2⟩ := List.mem_flatMap.1 ha
      exact seen_plain (hq p h1) a h2
  · intro h
    rw [h]

/-- Priors of which everything is printed: Gaussian, bounded, the two of Jeffreys, the baseline prior, and an eccentricity limit for one planet. -/
def PriorAttrs.Open : PriorAttrs → Prop
  | .gaussian .. | .hardBounds .. | .jeffreys .. | .modJeffreys .. | .baseline .. => True
  | .ecc l => l.length = 1
  | _ => False

theorem open_seen {ps qs : List PriorAttrs} (hp : ∀ p ∈ ps, p.Open) (hq : ∀ q ∈ qs, q.Open) (h : ps.flatMap PriorAttrs.seen = qs.flatMap PriorAttrs.seen) : ps = qs := by
  have one : ∀ p : PriorAttrs, p.Open → ∃ a, p.seen = [a] := by
    intro p h
    cases p with
    | ecc l => obtain ⟨x, rfl⟩ := List.length_eq_one_iff.1 h; exact ⟨_, rfl⟩
    | _ => exact ⟨_, rfl⟩
  have inj : ∀ p q : PriorAttrs, p.Open → q.Open → p.seen = q.seen → p = q := by
    intro p q h1 h2 h
    cases p <;> cases q <;> simp only [PriorAttrs.Open] at h1 h2 <;>
      first
      | (obtain ⟨x, rfl⟩ := List.length_eq_one_iff.1 h1; obtain ⟨y, rfl⟩ := List.length_eq_one_iff.1 h2; obtain ⟨x1, x2⟩ := x; obtain ⟨y1, y2⟩ := y; simpa [PriorAttrs.seen] using h)
      | (obtain ⟨x, rfl⟩ := List.length_eq_one_iff.1 h1; simp [PriorAttrs.seen] at h; done)
      | (obtain ⟨x, rfl⟩ := List.length_eq_one_iff.1 h2; simp [PriorAttrs.seen] at h; done)
      | (simp [PriorAttrs.seen] at h; done)
      | (simpa [PriorAttrs.seen] using h)
  induction ps generalizing qs with
  | nil =>
    cases qs with
    | nil => rfl
    | cons q qs =>
      obtain ⟨a, ha⟩ := one q (hq q (by simp))
      simp [ha] at h
  | cons p ps ih =>
    obtain ⟨a, ha⟩ := one p (hp p (by simp))
    cases qs with
    | nil => simp [ha] at h
    | cons q qs =>
      obtain ⟨b, hb⟩ := one q (hq q (by simp))
      simp only [List.flatMap_cons, ha, hb, List.cons_append, List.nil_append, List.cons.injEq] at h
      rw [inj p q (hp p (by simp)) (hq q (by simp)) (by rw [ha, hb, h.1]), ih (fun x hx => hp x (by simp [hx])) (fun x hx => hq x (by simp [hx])) h.2]

/-- C180 in part: with priors of which everything is printed, the text determines the list of priors. -/
theorem C180_determined_partial (like : Text) (ps qs : List PriorAttrs) (hp : ∀ p ∈ ps, p.Plain ∧ p.Open) (hq : ∀ q ∈ qs, q.Plain ∧ q.Open) (h : postRepr like ps = postRepr like qs) : ps = qs :=
  open_seen (fun p h => (hp p h).2) (fun q h => (hq q h).2) ((C180_exact like ps qs (fun p h => (hp p h).1) (fun q h => (hq q h).1)).1 h)

/-- Non-vacuity: five priors of a usual setup. -/
example : ∀ p ∈ ([.gaussian "tc1".toList "2072.79".toList "0.01".toList, .ecc [(1, "0.99".toList)], .hardBounds "jit_k".toList "0.0".toList "15.0".toList, .jeffreys "k1".toList "0.1".toList "100.0".toList,
    .baseline "per2".toList "500.0".toList "0.0".toList] : List PriorAttrs), p.Plain ∧ p.Open := by
  intro p hp
  simp only [List.mem_cons, List.not_mem_nil, or_false] at hp
  rcases hp with rfl | rfl | rfl | rfl | rfl <;> refine ⟨?_, ?_⟩ <;> simp [PriorAttrs.Plain, PriorAttrs.Open, PlainWord]

/-- C180 is false for secondary eclipses (/repo/radvel/prior.py 266-270): which planet is eclipsed is not printed. -/
theorem C180_eclipse_violated (like : Text) (ps qs : List PriorAttrs) (n m : Nat) (h : n ≠ m) (ts e : Text) :
    postRepr like (ps ++ .secEclipse n ts e :: qs) = postRepr like (ps ++ .secEclipse m ts e :: qs) ∧ ps ++ .secEclipse n ts e :: qs ≠ ps ++ .secEclipse m ts e :: qs :=
  ⟨by rw [postRepr_text, postRepr_text]; simp [PriorAttrs.seen], by simpa using h⟩

/-- C180 is false for positive amplitudes (/repo/radvel/prior.py 163-164): for how many planets is not printed. -/
theorem C180_positive_violated (like : Text) (ps qs : List PriorAttrs) (n m : Nat) (h : n ≠ m) :
    postRepr like (ps ++ .posK n :: qs) = postRepr like (ps ++ .posK m :: qs) ∧ ps ++ .posK n :: qs ≠ ps ++ .posK m :: qs :=
  ⟨by rw [postRepr_text, postRepr_text]; simp [PriorAttrs.seen], by simpa using h⟩

/-- C180 is false for numerical and user-defined priors (/repo/radvel/prior.py 470-474, 547-551): only the names of their parameters are printed (the text that the user gives is left to tables). -/
theorem C180_function_violated (like : Text) (ps qs : List PriorAttrs) (names : Text) (f g : Nat) (h : f ≠ g) :
    (postRepr like (ps ++ .user names f :: qs) = postRepr like (ps ++ .user names g :: qs) ∧ ps ++ .user names f :: qs ≠ ps ++ .user names g :: qs) ∧
    (postRepr like (ps ++ .numerical names f :: qs) = postRepr like (ps ++ .numerical names g :: qs) ∧ ps ++ .numerical names f :: qs ≠ ps ++ .numerical names g :: qs) :=
  ⟨⟨by rw [postRepr_text, postRepr_text]; simp [PriorAttrs.seen], by simpa using h⟩, ⟨by rw [postRepr_text, postRepr_text]; simp [PriorAttrs.seen], by simpa using h⟩⟩

/-- A printed posterior. -/
example : postRepr [] [.gaussian "k1".toList "5.0".toList "0.1".toList, .ecc [(1, "0.99".toList), (2, "0.9".toList)], .posK 2] =
    "\nPriors\n------\nGaussian prior on k1, mu=5.0, sigma=0.1\ne1 constrained to be < 0.99\ne2 constrained to be < 0.9\nK constrained to be > 0\n".toList := by decide +kernel

end Radvel
