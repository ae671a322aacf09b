import Verif.Spec.Cli
import Verif.Lemmas.Dict
import Mathlib.Data.List.TakeWhile

/-!
# The words of a command line: the parser and the spellings agree
-/

namespace Radvel

/-! ### the table of names -/

/-- A name: `-c`, or `--` and something; without `=`. -/
def goodName (n : Text) : Bool :=
  !n.contains '=' &&
    match n with
    | '-' :: '-' :: _ :: _ => true
    | ['-', c] => decide (c ≠ '-')
    | _ => false

/-- A table in which each name is there once and has one of the two forms. -/
structure GoodTable (opts : List CliOpt) : Prop where
  nodup : ((optStrings opts).map (fun e => e.1)).Nodup
  shape : ∀ e ∈ optStrings opts, goodName e.1 = true
  setup : IsName opts "--setup".toList

theorem isName_iff {opts : List CliOpt} {n : Text} : IsName opts n ↔ ∃ e ∈ optStrings opts, e.1 = n := by
  unfold IsName optStrings
  simp only [List.cons_append, List.nil_append, List.mem_cons, List.mem_flatMap, List.mem_map]
  constructor
  · rintro (⟨o, ho, hn⟩ | rfl | rfl)
    · exact ⟨(n, some o), .inr (.inr ⟨o, ho, n, hn, rfl⟩), rfl⟩
    · exact ⟨_, .inl rfl, rfl⟩
    · exact ⟨_, .inr (.inl rfl), rfl⟩
  · rintro ⟨e, rfl | rfl | ⟨o, ho, m, hm, rfl⟩, rfl⟩
    · exact .inr (.inl rfl)
    · exact .inr (.inr rfl)
    · exact .inl ⟨o, ho, hm⟩

theorem mem_strings {opts : List CliOpt} {n : Text} {o : CliOpt} : (n, some o) ∈ optStrings opts ↔ o ∈ opts ∧ n ∈ o.names := by
  unfold optStrings
  simp only [List.cons_append, List.nil_append, List.mem_cons, List.mem_flatMap, List.mem_map, Prod.mk.injEq, reduceCtorEq, and_false, false_or]
  constructor
  · rintro ⟨o', ho, m, hm, rfl, h⟩
    cases h
    exact ⟨ho, hm⟩
  · rintro ⟨ho, hn⟩
    exact ⟨o, ho, n, hn, rfl, rfl⟩

theorem findName_mem {tab : List (Text × Option CliOpt)} {n : Text} {r : Option CliOpt} (h : findName tab n = some r) : (n, r) ∈ tab := by
  unfold findName at h
  rw [Option.map_eq_some_iff] at h
  obtain ⟨e, h1, rfl⟩ := h
  have h2 := List.find?_some h1
  have h3 := List.mem_of_find?_eq_some h1
  rw [← (of_decide_eq_true h2 : e.1 = n)]
  exact h3

theorem nodup_unique {tab : List (Text × Option CliOpt)} (hd : (tab.map (fun e => e.1)).Nodup) : ∀ {n : Text} {r r' : Option CliOpt}, (n, r) ∈ tab → (n, r') ∈ tab → r = r' := by
  induction tab with
  | nil => intro n r r' h; cases h
  | cons e tab ih =>
    rw [List.map_cons, List.nodup_cons] at hd
    intro n r r' h h'
    have key : ∀ q, (n, q) ∈ tab → e.1 ≠ n := fun q hq he => hd.1 (he ▸ List.mem_map.mpr ⟨_, hq, rfl⟩)
    rcases List.mem_cons.mp h with h1 | h1
    · rcases List.mem_cons.mp h' with h2 | h2
      · rw [← h1] at h2; cases h2; rfl
      · exact absurd (by rw [← h1]) (key _ h2)
    · rcases List.mem_cons.mp h' with h2 | h2
      · exact absurd (by rw [← h2]) (key _ h1)
      · exact ih hd.2 h1 h2

theorem findName_iff {tab : List (Text × Option CliOpt)} (hd : (tab.map (fun e => e.1)).Nodup) {n : Text} {r : Option CliOpt} : findName tab n = some r ↔ (n, r) ∈ tab := by
  refine ⟨findName_mem, fun h => ?_⟩
  rcases hf : findName tab n with _ | q
  · unfold findName at hf
    rw [Option.map_eq_none_iff, List.find?_eq_none] at hf
    exact absurd (by simp) (hf _ h)
  · rw [nodup_unique hd (findName_mem hf) h]

theorem findName_none {opts : List CliOpt} {n : Text} : findName (optStrings opts) n = none ↔ ¬ IsName opts n := by
  unfold findName
  rw [Option.map_eq_none_iff, List.find?_eq_none, isName_iff]
  push Not
  simp only [decide_eq_true_eq, ne_eq]

theorem GoodTable.name {opts : List CliOpt} (ht : GoodTable opts) {n : Text} (h : IsName opts n) : goodName n = true := by
  obtain ⟨e, he, rfl⟩ := isName_iff.mp h
  exact ht.shape e he

theorem goodName_eq {n : Text} (h : goodName n = true) : '=' ∉ n := by
  unfold goodName at h
  rw [Bool.and_eq_true] at h
  simpa using h.1

/-- The two forms of a name. -/
theorem goodName_cases {n : Text} (h : goodName n = true) : (∃ c, n = ['-', c] ∧ c ≠ '-') ∨ ∃ c t, n = '-' :: '-' :: c :: t := by
  unfold goodName at h
  rw [Bool.and_eq_true] at h
  obtain ⟨-, h⟩ := h
  split at h
  · exact .inr ⟨_, _, rfl⟩
  · exact .inl ⟨_, rfl, of_decide_eq_true h⟩
  · cases h

theorem single {γ : Type} {f : Text × Option CliOpt → Option γ} {n : Text} {r : Option CliOpt} {y : γ} : ∀ {tab : List (Text × Option CliOpt)}, (tab.map (fun e => e.1)).Nodup → (n, r) ∈ tab →
    f (n, r) = some y → (∀ e ∈ tab, e.1 ≠ n → f e = none) → tab.filterMap f = [y] := by
  intro tab
  induction tab with
  | nil => intro _ h; cases h
  | cons e tab ih =>
    intro hd h hy hn
    rw [List.map_cons, List.nodup_cons] at hd
    rcases List.mem_cons.mp h with rfl | h
    · rw [List.filterMap_cons_some hy]
      have : tab.filterMap f = [] := by
        rw [List.filterMap_eq_nil_iff]
        intro e he
        exact hn e (by simp [he]) (fun h => hd.1 (List.mem_map.mpr ⟨e, he, h⟩))
      rw [this]
    · have he : e.1 ≠ n := fun he => hd.1 (he ▸ List.mem_map.mpr ⟨_, h, rfl⟩)
      rw [List.filterMap_cons_none (hn e (by simp) he)]
      exact ih hd.2 h hy (fun e he => hn e (by simp [he]))

theorem filter_map_eq {γ : Type} (p : Text × Option CliOpt → Bool) (g : Text × Option CliOpt → γ) (tab : List (Text × Option CliOpt)) :
    (tab.filter p).map g = tab.filterMap (fun e => if p e = true then some (g e) else none) := by
  induction tab with
  | nil => rfl
  | cons e tab ih =>
    by_cases h : p e = true
    · rw [List.filter_cons_of_pos h, List.map_cons, ih]; simp only [List.filterMap_cons, h, if_true]
    · rw [List.filter_cons_of_neg h, ih]; simp only [List.filterMap_cons, h, if_false, Bool.false_eq_true]

theorem partitionEq_cons {c : Char} (hc : c ≠ '=') (t : Text) : partitionEq (c :: t) = (c :: (partitionEq t).1, (partitionEq t).2) := by
  rw [partitionEq, if_neg hc]

theorem partitionEq_spec (w : Text) : (∃ v, (partitionEq w).2 = some v ∧ w = (partitionEq w).1 ++ '=' :: v ∧ '=' ∉ (partitionEq w).1) ∨ (partitionEq w = (w, none) ∧ '=' ∉ w) := by
  induction w with
  | nil => exact .inr ⟨rfl, by simp⟩
  | cons c t ih =>
    unfold partitionEq
    by_cases hc : c = '='
    · subst hc
      exact .inl ⟨t, by simp, by simp, by simp⟩
    · rw [if_neg hc]
      rcases ih with ⟨v, h1, h2, h3⟩ | ⟨h1, h2⟩
      · refine .inl ⟨v, h1, ?_, ?_⟩
        · simp only [List.cons_append]; rw [← h2]
        · simp only [List.mem_cons, not_or]; exact ⟨fun h => hc h.symm, h3⟩
      · refine .inr ⟨by rw [h1], ?_⟩
        simp only [List.mem_cons, not_or]; exact ⟨fun h => hc h.symm, h2⟩

theorem partitionEq_at (p v : Text) (hp : '=' ∉ p) : partitionEq (p ++ '=' :: v) = (p, some v) := by
  induction p with
  | nil => simp [partitionEq]
  | cons c t ih =>
    simp only [List.mem_cons, not_or] at hp
    rw [List.cons_append, partitionEq, if_neg (fun h => hp.1 h.symm), ih hp.2]

theorem partitionEq_whole (p : Text) (hp : '=' ∉ p) : partitionEq p = (p, none) := by
  rcases partitionEq_spec p with ⟨v, -, h2, -⟩ | ⟨h1, -⟩
  · exact absurd (by rw [h2]; simp) hp
  · exact h1

/-! ### negative numbers -/

theorem isNegNumber_iff (w : Text) : isNegNumber w = true ↔ NegNumber w := by
  constructor
  · intro h
    unfold isNegNumber at h
    split at h
    · rename_i t
      have ht := List.takeWhile_append_dropWhile (p := Char.isDigit) (l := t)
      have hd : ∀ c ∈ t.takeWhile Char.isDigit, c.isDigit = true := fun c hc => List.all_eq_true.mp List.all_takeWhile c hc
      split at h
      · rename_i e
        rw [e, List.append_nil] at ht
        exact ⟨t, [], by rw [← ht]; exact hd, by simp, .inl ⟨rfl, of_decide_eq_true h⟩⟩
      · rename_i b e
        rw [Bool.and_eq_true] at h
        refine ⟨t.takeWhile Char.isDigit, b, hd, fun c hc => List.all_eq_true.mp h.2 c hc, .inr ⟨?_, of_decide_eq_true h.1⟩⟩
        rw [← e, ht]
      · cases h
    · cases h
  · rintro ⟨a, b, ha, hb, ⟨rfl, hne⟩ | ⟨rfl, hne⟩⟩
    · unfold isNegNumber
      have : a.dropWhile Char.isDigit = [] := List.dropWhile_eq_nil_iff.mpr ha
      simp [this, hne]
    · unfold isNegNumber
      have : (a ++ '.' :: b).dropWhile Char.isDigit = '.' :: b := by
        rw [List.dropWhile_append_of_pos ha]
        rfl
      simp only [this]
      simp [hne]
      exact hb

/-! ### letters behind a dash -/

theorem unbundle_value {tab : List (Text × Option CliOpt)} {o : CliOpt} (h : ∀ b, o.action ≠ .flag b) (long sep : Bool) (a : Text) : unbundle tab long o sep a = some ([], o, some a) := by
  unfold unbundle
  split
  · rfl
  · rfl
  · rename_i b e; exact absurd e (h b)

theorem unbundle_flag {tab : List (Text × Option CliOpt)} {o : CliOpt} {b : Bool} (h : o.action = .flag b) {long sep : Bool} (hs : long = true ∨ sep = true) (a : Text) : unbundle tab long o sep a = none := by
  unfold unbundle
  rw [h]
  simp only
  split
  · rfl
  · rename_i x rest
    rw [if_pos (by rcases hs with rfl | rfl <;> simp)]

theorem flag_or (o : CliOpt) : (∃ b, o.action = .flag b) ∨ ∀ b, o.action ≠ .flag b := by
  rcases h : o.action with c | _ | b
  · exact .inr (by simp)
  · exact .inr (by simp)
  · exact .inl ⟨b, rfl⟩

/-- The step behind a flag. -/
theorem unbundle_step {tab : List (Text × Option CliOpt)} {o : CliOpt} {b : Bool} (h : o.action = .flag b) (x : Char) (rest : Text) :
    unbundle tab false o false (x :: rest) =
      if x == '-' then none
      else
        match findName tab ['-', x] with
        | some (some o') =>
          match rest with
          | [] => some ([o], o', none)
          | y :: rest' => (if y = '=' then unbundle tab false o' true rest' else unbundle tab false o' false (y :: rest')).map (fun r => (o :: r.1, r.2))
        | _ => none := by
  rw [unbundle, h]
  simp only [Bool.false_or]
  split
  · rfl
  · rcases findName tab ['-', x] with _ | _ | o'
    · rfl
    · rfl
    · cases rest <;> rfl

/-- The flags of a bundle. -/
def Flags (opts : List CliOpt) (l : List (Char × CliOpt)) : Prop := ∀ f ∈ l, f.2 ∈ opts ∧ ['-', f.1] ∈ f.2.names ∧ ∃ b, f.2.action = .flag b

theorem unbundle_sound {opts : List CliOpt} : ∀ (k : Nat) (c : Char) (o : CliOpt) (x0 : Char) (a0 : Text) (fs : List CliOpt) (o' : CliOpt) (arg : Option Text), a0.length ≤ k → o ∈ opts →
    ['-', c] ∈ o.names → x0 ≠ '=' → unbundle (optStrings opts) false o false (x0 :: a0) = some (fs, o', arg) →
    ∃ l x tail, c :: x0 :: a0 = l.map (fun f => f.1) ++ x :: tail ∧ fs = l.map (fun f => f.2) ∧ Flags opts l ∧ o' ∈ opts ∧ ['-', x] ∈ o'.names ∧ Attached tail arg := by
  intro k
  induction k with
  | zero =>
    intro c o x0 a0 fs o' arg hk ho hc hx h
    have : a0 = [] := List.length_eq_zero_iff.mp (by omega)
    subst this
    rcases flag_or o with ⟨b, hb⟩ | hb
    · rw [unbundle_step hb] at h
      split at h
      · cases h
      · split at h
        · rename_i o1 he
          cases h
          obtain ⟨h1, h2⟩ := mem_strings.mp (findName_mem he)
          exact ⟨[(c, o)], x0, [], rfl, rfl, (by intro f hf; rw [List.mem_singleton] at hf; subst hf; exact ⟨ho, hc, b, hb⟩), h1, h2, .nothing⟩
        · cases h
    · rw [unbundle_value hb] at h
      cases h
      exact ⟨[], c, _, rfl, rfl, (by intro f hf; cases hf), ho, hc, .direct _ _ hx⟩
  | succ k ih =>
    intro c o x0 a0 fs o' arg hk ho hc hx h
    rcases flag_or o with ⟨b, hb⟩ | hb
    · rw [unbundle_step hb] at h
      split at h
      · cases h
      · split at h
        · rename_i o1 he
          obtain ⟨h1, h2⟩ := mem_strings.mp (findName_mem he)
          have hf1 : Flags opts [(c, o)] := by intro f hf; rw [List.mem_singleton] at hf; subst hf; exact ⟨ho, hc, b, hb⟩
          cases a0 with
          | nil =>
            cases h
            exact ⟨[(c, o)], x0, [], rfl, rfl, hf1, h1, h2, .nothing⟩
          | cons y rest =>
            simp only [Option.map_eq_some_iff] at h
            obtain ⟨⟨fs', o2, arg'⟩, h3, h4⟩ := h
            cases h4
            by_cases hy : y = '='
            · rw [if_pos hy] at h3
              subst hy
              rcases flag_or o1 with ⟨b1, hb1⟩ | hb1
              · rw [unbundle_flag hb1 (.inr rfl)] at h3; cases h3
              · rw [unbundle_value hb1] at h3
                cases h3
                exact ⟨[(c, o)], x0, _, rfl, rfl, hf1, h1, h2, .equals _⟩
            · rw [if_neg hy] at h3
              obtain ⟨l, x, tail, e1, e2, e3, e4, e5, e6⟩ := ih x0 o1 y rest fs' o' arg (by simp at hk; omega) h1 h2 hy h3
              refine ⟨(c, o) :: l, x, tail, ?_, by rw [e2]; rfl, ?_, e4, e5, e6⟩
              · rw [e1]; rfl
              · intro f hf
                rcases List.mem_cons.mp hf with rfl | hf
                · exact ⟨ho, hc, b, hb⟩
                · exact e3 f hf
        · cases h
    · rw [unbundle_value hb] at h
      cases h
      exact ⟨[], c, _, rfl, rfl, (by intro f hf; cases hf), ho, hc, .direct _ _ hx⟩

theorem letter_ne {opts : List CliOpt} (ht : GoodTable opts) {o : CliOpt} {x : Char} (ho : o ∈ opts) (hx : ['-', x] ∈ o.names) : x ≠ '-' ∧ x ≠ '=' := by
  have h := ht.name (.inl ⟨o, ho, hx⟩)
  constructor
  · rcases goodName_cases h with ⟨c, e, hc⟩ | ⟨c, t, e⟩
    · cases e; exact hc
    · cases e
  · intro e
    exact goodName_eq h (by simp [e])

theorem unbundle_complete {opts : List CliOpt} (ht : GoodTable opts) {x : Char} {o : CliOpt} {tail : Text} {arg : Option Text} (ho : o ∈ opts) (hx : ['-', x] ∈ o.names) (ha : Attached tail arg)
    (hv : arg ≠ none → ∀ b, o.action ≠ .flag b) : ∀ (l : List (Char × CliOpt)) (f : Char × CliOpt), Flags opts (f :: l) →
    unbundle (optStrings opts) false f.2 false (l.map (fun f => f.1) ++ x :: tail) = some ((f :: l).map (fun f => f.2), o, arg) := by
  have hn : ∀ {o' : CliOpt} {y : Char}, o' ∈ opts → ['-', y] ∈ o'.names → findName (optStrings opts) ['-', y] = some (some o') := fun h1 h2 => (findName_iff ht.nodup).mpr (mem_strings.mpr ⟨h1, h2⟩)
  intro l
  induction l with
  | nil =>
    intro f hf
    obtain ⟨h1, h2, b, h3⟩ := hf f (by simp)
    rw [List.map_nil, List.nil_append, unbundle_step h3, if_neg (by simpa using (letter_ne ht ho hx).1), hn ho hx]
    cases ha with
    | nothing => rfl
    | equals v =>
      simp only [if_true]
      rw [unbundle_value (hv (by simp))]
      rfl
    | direct c v hc =>
      simp only
      rw [if_neg hc, unbundle_value (hv (by simp))]
      rfl
  | cons g l ih =>
    intro f hf
    obtain ⟨h1, h2, b, h3⟩ := hf f (by simp)
    obtain ⟨g1, g2, b', g3⟩ := hf g (by simp)
    have hi := ih g (fun f' hf' => hf f' (by simp only [List.mem_cons] at hf' ⊢; exact .inr hf'))
    rw [List.map_cons, List.cons_append, unbundle_step h3, if_neg (by simpa using (letter_ne ht g1 g2).1), hn g1 g2]
    have hne : ∃ y rest, l.map (fun f => f.1) ++ x :: tail = y :: rest ∧ y ≠ '=' := by
      cases l with
      | nil => exact ⟨x, tail, rfl, (letter_ne ht ho hx).2⟩
      | cons q l =>
        obtain ⟨q1, q2, -⟩ := hf q (by simp)
        exact ⟨q.1, _, rfl, (letter_ne ht q1 q2).2⟩
    obtain ⟨y, rest, e, hy⟩ := hne
    rw [e] at hi ⊢
    simp only
    rw [if_neg hy, hi]
    rfl

/-! ### what a word is taken for -/

theorem classify_dash {tab : List (Text × Option CliOpt)} (r : Text) (h : '-' :: r ≠ "--".toList) :
    classify tab ('-' :: r) =
      match findName tab ('-' :: r) with
      | some o => some (.opt ⟨'-' :: r, o, false, none⟩)
      | none =>
        if r = [] then some .value
        else
          match (partitionEq ('-' :: r)).2, findName tab (partitionEq ('-' :: r)).1 with
          | some v, some o => some (.opt ⟨(partitionEq ('-' :: r)).1, o, true, some v⟩)
          | _, _ =>
            match optionTuples tab ('-' :: r) with
            | [] => if isNegNumber ('-' :: r) || ('-' :: r).contains ' ' then some .value else some .unknown
            | [t] => some (.opt t)
            | _ => none := by
  unfold classify
  rw [if_neg h]
  rfl

theorem classify_plain {tab : List (Text × Option CliOpt)} {w : Text} (h : Plain w) : classify tab w = some .value := by
  unfold classify
  rw [if_neg (show w ≠ "--".toList from h ['-'])]
  split
  · exact absurd rfl (h _)
  · rfl

theorem long_iff (w : Text) : "--".toList.isPrefixOf w = true ↔ "--".toList <+: w := List.isPrefixOf_iff_prefix

theorem dashes_iff {w : Text} : "--".toList <+: w ↔ ∃ t, w = '-' :: '-' :: t := by
  constructor
  · rintro ⟨t, rfl⟩; exact ⟨t, rfl⟩
  · rintro ⟨t, rfl⟩; exact ⟨t, rfl⟩

/-- What is before the `=` in a word that begins with `--`. -/
theorem partition_dashes {w : Text} (h : "--".toList <+: w) : "--".toList <+: (partitionEq w).1 := by
  obtain ⟨t, rfl⟩ := dashes_iff.mp h
  exact dashes_iff.mpr ⟨(partitionEq t).1, rfl⟩

/-- The cases in which a word is an option. -/
theorem classify_opt {opts : List CliOpt} (ht : GoodTable opts) {w : Text} {t : OptTok} (h : classify (optStrings opts) w = some (.opt t)) : (t.name, t.opt) ∈ optStrings opts ∧
    ((w = t.name ∧ t.arg = none) ∨
     (∃ v, w = t.name ++ '=' :: v ∧ t.sep = true ∧ t.arg = some v) ∨
     (∃ p, "--".toList <+: p ∧ ¬ IsName opts p ∧ p <+: t.name ∧ (∀ m, IsName opts m → p <+: m → m = t.name) ∧ ((w = p ∧ t.arg = none) ∨ ∃ v, w = p ++ '=' :: v ∧ t.arg = some v)) ∨
     (∃ c x a, w = '-' :: c :: x :: a ∧ x ≠ '=' ∧ t.name = ['-', c] ∧ t.sep = false ∧ t.arg = some (x :: a))) := by
  by_cases hw : w = "--".toList
  · unfold classify at h; rw [if_pos hw] at h; cases h
  by_cases hp : Plain w
  · rw [classify_plain hp] at h; cases h
  obtain ⟨r, rfl⟩ : ∃ r, w = '-' :: r := by
    by_contra hc
    exact hp (fun t e => hc ⟨t, e⟩)
  rw [classify_dash r hw] at h
  rcases hf : findName (optStrings opts) ('-' :: r) with _ | o
  · rw [hf] at h
    simp only at h
    have hnw := findName_none.mp hf
    by_cases hr : r = []
    · rw [if_pos hr] at h; cases h
    · rw [if_neg hr] at h
      split at h
      · rename_i v o h1 h2
        cases h
        refine ⟨findName_mem h2, .inr (.inl ⟨v, ?_, rfl, rfl⟩)⟩
        rcases partitionEq_spec ('-' :: r) with ⟨v', e1, e2, -⟩ | ⟨e1, -⟩
        · rw [h1] at e1; cases e1; exact e2
        · rw [e1] at h1; cases h1
      · rename_i hno
        split at h
        · split at h <;> cases h
        · rename_i t' ht'
          cases h
          -- the part before `=` is no name
          have hnp : ¬ IsName opts (partitionEq ('-' :: r)).1 := by
            rw [← findName_none]
            rcases partitionEq_spec ('-' :: r) with ⟨v', e1, -, -⟩ | ⟨e1, -⟩
            · rcases h2 : findName (optStrings opts) (partitionEq ('-' :: r)).1 with _ | o
              · rfl
              · exact (hno v' o e1 h2).elim
            · rw [e1]; exact hf
          unfold optionTuples at ht'
          split at ht'
          · rename_i hl
            rw [filter_map_eq] at ht'
            have hmem : ∀ e ∈ optStrings opts, (partitionEq ('-' :: r)).1 <+: e.1 → t = ⟨e.1, e.2, (partitionEq ('-' :: r)).2.isSome, (partitionEq ('-' :: r)).2⟩ := by
              intro e he hpre
              have : (⟨e.1, e.2, (partitionEq ('-' :: r)).2.isSome, (partitionEq ('-' :: r)).2⟩ : OptTok) ∈ [t] := by
                rw [← ht', List.mem_filterMap]
                exact ⟨e, he, if_pos (List.isPrefixOf_iff_prefix.mpr hpre)⟩
              exact (List.mem_singleton.mp this).symm
            have ht1 : t ∈ [t] := List.mem_singleton.mpr rfl
            rw [← ht', List.mem_filterMap] at ht1
            obtain ⟨e, he, h3⟩ := ht1
            split at h3
            · rename_i hpre
              cases h3
              refine ⟨he, .inr (.inr (.inl ⟨(partitionEq ('-' :: r)).1, partition_dashes ((long_iff _).mp hl), hnp, List.isPrefixOf_iff_prefix.mp hpre, ?_, ?_⟩))⟩
              · intro m hm hpm
                obtain ⟨e', he', rfl⟩ := isName_iff.mp hm
                have := hmem e' he' hpm
                injection this with a1
                exact a1.symm
              · rcases partitionEq_spec ('-' :: r) with ⟨v', e1, e2, -⟩ | ⟨e1, -⟩
                · exact .inr ⟨v', e2, e1⟩
                · exact .inl ⟨by rw [e1], by rw [e1]⟩
            · cases h3
          · rename_i hl
            have ht1 : t ∈ [t] := List.mem_singleton.mpr rfl
            rw [← ht', List.mem_filterMap] at ht1
            obtain ⟨e, he, h3⟩ := ht1
            have hg := ht.shape e he
            split at h3
            · rename_i he2
              cases h3
              refine ⟨he, .inr (.inr (.inr ?_))⟩
              cases r with
              | nil => exact absurd rfl hr
              | cons c a =>
                have he3 : e.1 = ['-', c] := by rw [he2]; simp
                cases a with
                | nil => exact absurd (isName_iff.mpr ⟨e, he, he3⟩) hnw
                | cons x a =>
                  refine ⟨c, x, a, rfl, ?_, he3, rfl, rfl⟩
                  rintro rfl
                  have hce : '=' ∉ ['-', c] := by rw [← he3]; exact goodName_eq hg
                  have := partitionEq_at ['-', c] a hce
                  exact hnp (by rw [show '-' :: c :: '=' :: a = ['-', c] ++ '=' :: a from rfl, this]; exact isName_iff.mpr ⟨e, he, he3⟩)
            · split at h3
              · rename_i hpre
                have hpre := List.isPrefixOf_iff_prefix.mp hpre
                exfalso
                rcases goodName_cases hg with ⟨c, e1, hc⟩ | ⟨c, a, e1⟩
                · rw [e1] at hpre
                  have hle := hpre.length_le
                  have : '-' :: r = ['-', c] := hpre.eq_of_length (by
                    cases r with
                    | nil => exact absurd rfl hr
                    | cons x a => simp at hle ⊢; omega)
                  exact hnw (isName_iff.mpr ⟨e, he, by rw [this, e1]⟩)
                · rw [e1] at hpre
                  cases r with
                  | nil => exact absurd rfl hr
                  | cons x b =>
                    rw [List.cons_prefix_cons, List.cons_prefix_cons] at hpre
                    exact hl ((long_iff _).mpr (dashes_iff.mpr ⟨b, by rw [hpre.2.1]⟩))
              · cases h3
        · cases h
  · rw [hf] at h
    cases h
    exact ⟨findName_mem hf, .inl ⟨rfl, rfl⟩⟩

theorem name_dash {opts : List CliOpt} (ht : GoodTable opts) {n : Text} (h : IsName opts n) : ∃ r, n = '-' :: r ∧ r ≠ [] ∧ n ≠ "--".toList := by
  rcases goodName_cases (ht.name h) with ⟨c, rfl, hc⟩ | ⟨c, t, rfl⟩
  · refine ⟨[c], rfl, by simp, ?_⟩
    intro e
    cases e
    exact hc rfl
  · exact ⟨_, rfl, by simp, by intro e; cases e⟩

theorem classify_named {opts : List CliOpt} (ht : GoodTable opts) {n : Text} {r : Option CliOpt} (h : (n, r) ∈ optStrings opts) : classify (optStrings opts) n = some (.opt ⟨n, r, false, none⟩) := by
  obtain ⟨t, rfl, -, hd⟩ := name_dash ht (isName_iff.mpr ⟨_, h, rfl⟩)
  rw [classify_dash t hd, (findName_iff ht.nodup).mpr h]

theorem not_name_eq {opts : List CliOpt} (ht : GoodTable opts) (p v : Text) : ¬ IsName opts (p ++ '=' :: v) := fun h => goodName_eq (ht.name h) (by simp)

theorem classify_equals {opts : List CliOpt} (ht : GoodTable opts) {n : Text} {r : Option CliOpt} (h : (n, r) ∈ optStrings opts) (v : Text) :
    classify (optStrings opts) (n ++ '=' :: v) = some (.opt ⟨n, r, true, some v⟩) := by
  have hn : IsName opts n := isName_iff.mpr ⟨_, h, rfl⟩
  obtain ⟨t, e, -, hd⟩ := name_dash ht hn
  have hp := partitionEq_at n v (goodName_eq (ht.name hn))
  have hnn := findName_none.mpr (not_name_eq ht n v)
  have hd' : '-' :: (t ++ '=' :: v) ≠ "--".toList := by
    intro e'
    have : '=' ∈ "--".toList := by rw [← e']; simp
    revert this; decide
  have e2 : n ++ '=' :: v = '-' :: (t ++ '=' :: v) := by rw [e]; rfl
  rw [e2] at hp hnn ⊢
  rw [classify_dash _ hd', hnn]
  simp only
  rw [if_neg (by simp), hp]
  simp only
  rw [(findName_iff ht.nodup).mpr h]

theorem prefix_no_eq {opts : List CliOpt} (ht : GoodTable opts) {p n : Text} (hn : IsName opts n) (h : p <+: n) : '=' ∉ p := fun hm => goodName_eq (ht.name hn) (h.subset hm)

theorem two_dashes {opts : List CliOpt} (ht : GoodTable opts) {p n : Text} (hu : ∀ m, IsName opts m → p <+: m → m = n) : p ≠ "--".toList := by
  rintro rfl
  have h1 := hu "--setup".toList ht.setup ⟨"setup".toList, rfl⟩
  have h2 := hu "--help".toList (.inr (.inr rfl)) ⟨"help".toList, rfl⟩
  rw [← h2] at h1
  revert h1
  decide

theorem tuples_abbr {opts : List CliOpt} (ht : GoodTable opts) {p n w : Text} {r : Option CliOpt} (h : (n, r) ∈ optStrings opts) (hp : "--".toList <+: w) (he : (partitionEq w).1 = p)
    (hpre : p <+: n) (hu : ∀ m, IsName opts m → p <+: m → m = n) : optionTuples (optStrings opts) w = [⟨n, r, (partitionEq w).2.isSome, (partitionEq w).2⟩] := by
  unfold optionTuples
  rw [if_pos ((long_iff w).mpr hp), filter_map_eq, he]
  refine single ht.nodup h (if_pos (List.isPrefixOf_iff_prefix.mpr hpre)) ?_
  intro e hm hne
  refine if_neg fun hq => hne (hu e.1 (isName_iff.mpr ⟨e, hm, rfl⟩) (List.isPrefixOf_iff_prefix.mp hq))

theorem classify_abbr {opts : List CliOpt} (ht : GoodTable opts) {p n : Text} {r : Option CliOpt} (h : (n, r) ∈ optStrings opts) (hp : "--".toList <+: p) (hnp : ¬ IsName opts p) (hpre : p <+: n)
    (hu : ∀ m, IsName opts m → p <+: m → m = n) : classify (optStrings opts) p = some (.opt ⟨n, r, false, none⟩) ∧
    ∀ v, classify (optStrings opts) (p ++ '=' :: v) = some (.opt ⟨n, r, true, some v⟩) := by
  have hn := isName_iff.mpr ⟨_, h, rfl⟩
  have heq := prefix_no_eq ht hn hpre
  have hd := two_dashes ht hu
  obtain ⟨t, rfl⟩ := dashes_iff.mp hp
  have hnf := findName_none.mpr hnp
  constructor
  · have hw := partitionEq_whole _ heq
    have htu := tuples_abbr ht h hp (by rw [hw]) hpre hu
    rw [hw] at htu
    rw [classify_dash _ hd, hnf]
    simp only
    rw [if_neg (by simp), hw, htu]
    rfl
  · intro v
    have hw := partitionEq_at _ v heq
    have hp' : "--".toList <+: '-' :: '-' :: t ++ '=' :: v := dashes_iff.mpr ⟨t ++ '=' :: v, rfl⟩
    have htu := tuples_abbr ht h hp' (by rw [hw]) hpre hu
    rw [hw] at htu
    have hd' : '-' :: '-' :: t ++ '=' :: v ≠ "--".toList := by
      intro e'
      have : '=' ∈ "--".toList := by rw [← e']; simp
      revert this; decide
    have hnn := findName_none.mpr (not_name_eq ht ('-' :: '-' :: t) v)
    have e2 : '-' :: '-' :: t ++ '=' :: v = '-' :: ('-' :: t ++ '=' :: v) := rfl
    rw [e2] at hd' hnn hw htu ⊢
    rw [classify_dash _ hd', hnn]
    simp only
    rw [if_neg (by simp), hw]
    simp only
    rw [hnf]
    simp only
    rw [htu]
    rfl

theorem classify_letter {opts : List CliOpt} (ht : GoodTable opts) {c x : Char} {a : Text} {r : Option CliOpt} (h : (['-', c], r) ∈ optStrings opts) (hx : x ≠ '=') :
    classify (optStrings opts) ('-' :: c :: x :: a) = some (.opt ⟨['-', c], r, false, some (x :: a)⟩) := by
  have hn := isName_iff.mpr ⟨_, h, rfl⟩
  have hc : c ≠ '-' ∧ c ≠ '=' := by
    refine ⟨?_, fun e => goodName_eq (ht.name hn) (by simp [e])⟩
    rcases goodName_cases (ht.name hn) with ⟨c', e, hc⟩ | ⟨c', t, e⟩
    · cases e; exact hc
    · cases e
  have three : ∀ q : Text, ¬ IsName opts ('-' :: c :: x :: q) := by
    intro q hq
    rcases goodName_cases (ht.name hq) with ⟨c', e, -⟩ | ⟨c', t, e⟩
    · cases e
    · cases e; exact hc.1 rfl
  have hp1 : (partitionEq ('-' :: c :: x :: a)).1 = '-' :: c :: x :: (partitionEq a).1 := by
    rw [partitionEq_cons (by decide), partitionEq_cons hc.2, partitionEq_cons hx]
  rw [classify_dash _ (by intro e; cases e), findName_none.mpr (three a)]
  simp only
  rw [if_neg (by simp), hp1, findName_none.mpr (three _)]
  have htu : optionTuples (optStrings opts) ('-' :: c :: x :: a) = [⟨['-', c], r, false, some (x :: a)⟩] := by
    unfold optionTuples
    rw [if_neg (by rw [long_iff, dashes_iff]; rintro ⟨t, e⟩; cases e; exact hc.1 rfl)]
    refine single ht.nodup h (if_pos rfl) ?_
    intro e he hne
    rw [if_neg (show ¬ e.1 = List.take 2 ('-' :: c :: x :: a) from hne), if_neg]
    intro hq
    have hq := List.isPrefixOf_iff_prefix.mp hq
    obtain ⟨q, hq⟩ := hq
    exact three (a ++ q) (isName_iff.mpr ⟨e, he, hq.symm⟩)
  rw [htu]
  generalize (partitionEq ('-' :: c :: x :: a)).2 = q
  cases q <;> rfl

/-! ### the words of options -/

/-- The uses of the flags in a word. -/
theorem letters_flags {opts : List CliOpt} {l : List (Char × CliOpt)} (h : Flags opts l) :
    ∀ u ∈ l.map (fun f => (⟨['-', f.1], f.2, []⟩ : OptUse)), ∃ b, u.opt.action = .flag b ∧ u.vals = [] ∧ u.opt ∈ opts ∧ u.name ∈ u.opt.names := by
  intro u hu
  obtain ⟨f, hf, rfl⟩ := List.mem_map.mp hu
  obtain ⟨h1, h2, b, h3⟩ := h f hf
  exact ⟨b, h3, rfl, h1, h2⟩

theorem readWord_sound {opts : List CliOpt} (ht : GoodTable opts) {w : Text} {fs : List CliOpt} {o : CliOpt} {arg : Option Text} (h : readWord (optStrings opts) w = some (fs, o, arg)) :
    ∃ us n, WordFor opts w us n o arg ∧ us.map (fun u => u.opt) = fs := by
  unfold readWord at h
  split at h
  · rename_i name o1 sep a hc
    obtain ⟨hm, hcase⟩ := classify_opt ht hc
    obtain ⟨ho, hn⟩ := mem_strings.mp hm
    simp only at hcase
    rcases hcase with ⟨-, h1⟩ | ⟨v, h1, h2, h3⟩ | ⟨p, h1, h2, h3, h4, h5⟩ | ⟨c, x, a', h1, h2, h3, h4, h5⟩
    · cases h1
    · cases h3
      subst h2
      rcases flag_or o1 with ⟨b, hb⟩ | hb
      · rw [unbundle_flag hb (.inr rfl)] at h; cases h
      · rw [unbundle_value hb] at h
        cases h
        exact ⟨[], name, h1 ▸ .equals name name a o ho hn (.inl rfl), rfl⟩
    · have hl : "--".toList.isPrefixOf name = true := (long_iff _).mpr (h1.trans h3)
      rcases h5 with ⟨-, h5⟩ | ⟨v, h5, h6⟩
      · cases h5
      cases h6
      rcases flag_or o1 with ⟨b, hb⟩ | hb
      · rw [hl, unbundle_flag hb (.inl rfl)] at h; cases h
      · rw [unbundle_value hb] at h
        cases h
        exact ⟨[], name, h5 ▸ .equals p name a o ho hn (.inr ⟨h1, h2, h3, h4⟩), rfl⟩
    · cases h5
      subst h4 h3
      have hl : "--".toList.isPrefixOf ['-', c] = false := by
        rw [← Bool.not_eq_true, long_iff, dashes_iff]
        rintro ⟨t, e⟩
        cases e
        exact (letter_ne ht ho hn).1 rfl
      rw [hl] at h
      obtain ⟨l, x', tail, e1, e2, e3, e4, e5, e6⟩ := unbundle_sound _ c o1 x a' fs o arg le_rfl ho hn h2 h
      refine ⟨l.map fun f => ⟨['-', f.1], f.2, []⟩, ['-', x'], ?_, ?_⟩
      · rw [h1, e1]
        exact .letters l x' o tail arg e3 e4 e5 e6
      · rw [e2, List.map_map]; rfl
  · rename_i name o1 sep hc
    cases h
    obtain ⟨hm, hcase⟩ := classify_opt ht hc
    obtain ⟨ho, hn⟩ := mem_strings.mp hm
    simp only at hcase
    rcases hcase with ⟨h1, -⟩ | ⟨v, h1, h2, h3⟩ | ⟨p, h1, h2, h3, h4, h5⟩ | ⟨c, x, a', h1, h2, h3, h4, h5⟩
    · exact ⟨[], name, .named w name o ho hn (.inl h1), rfl⟩
    · cases h3
    · rcases h5 with ⟨h5, -⟩ | ⟨v, -, h5⟩
      · exact ⟨[], name, .named w name o ho hn (.inr ⟨h5 ▸ h1, h5 ▸ h2, h5 ▸ h3, h5 ▸ h4⟩), rfl⟩
      · cases h5
    · cases h5
  · cases h

theorem readWord_complete {opts : List CliOpt} (ht : GoodTable opts) {w : Text} {us : List OptUse} {n : Text} {o : CliOpt} {arg : Option Text} (h : WordFor opts w us n o arg)
    (hv : arg ≠ none → ∀ b, o.action ≠ .flag b) : readWord (optStrings opts) w = some (us.map (fun u => u.opt), o, arg) := by
  cases h with
  | named w n o ho hn hs =>
    have hm := mem_strings.mpr ⟨ho, hn⟩
    unfold readWord
    rcases hs with rfl | ⟨h1, h2, h3, h4⟩
    · rw [classify_named ht hm]; rfl
    · rw [(classify_abbr ht hm h1 h2 h3 h4).1]; rfl
  | equals w n v o ho hn hs =>
    have hm := mem_strings.mpr ⟨ho, hn⟩
    unfold readWord
    rcases hs with rfl | ⟨h1, h2, h3, h4⟩
    · rw [classify_equals ht hm]
      exact unbundle_value (hv (by simp)) _ _ _
    · rw [(classify_abbr ht hm h1 h2 h3 h4).2]
      exact unbundle_value (hv (by simp)) _ _ _
  | letters fs x o tail arg hf ho hx ha =>
    have hlong : ∀ {o' : CliOpt} {c : Char}, o' ∈ opts → ['-', c] ∈ o'.names → "--".toList.isPrefixOf ['-', c] = false := by
      intro o' c h1 h2
      rw [← Bool.not_eq_true, long_iff, dashes_iff]
      rintro ⟨t, e⟩
      cases e
      exact (letter_ne ht h1 h2).1 rfl
    cases fs with
    | nil =>
      have hm := mem_strings.mpr ⟨ho, hx⟩
      unfold readWord
      cases ha with
      | nothing =>
        rw [show '-' :: (([] : List (Char × CliOpt)).map (fun f => f.1) ++ [x]) = ['-', x] from rfl, classify_named ht hm]; rfl
      | equals v =>
        rw [show '-' :: (([] : List (Char × CliOpt)).map (fun f => f.1) ++ x :: '=' :: v) = ['-', x] ++ '=' :: v from rfl, classify_equals ht hm]
        exact unbundle_value (hv (by simp)) _ _ _
      | direct c v hc =>
        rw [show '-' :: (([] : List (Char × CliOpt)).map (fun f => f.1) ++ x :: c :: v) = '-' :: x :: c :: v from rfl, classify_letter ht hm hc]
        exact unbundle_value (hv (by simp)) _ _ _
    | cons f l =>
      obtain ⟨f1, f2, b, f3⟩ := hf f (by simp)
      have hm := mem_strings.mpr ⟨f1, f2⟩
      have hne : ∃ y rest, l.map (fun f => f.1) ++ x :: tail = y :: rest ∧ y ≠ '=' := by
        cases l with
        | nil => exact ⟨x, tail, rfl, (letter_ne ht ho hx).2⟩
        | cons q l =>
          obtain ⟨q1, q2, -⟩ := hf q (by simp)
          exact ⟨q.1, _, rfl, (letter_ne ht q1 q2).2⟩
      obtain ⟨y, rest, e, hy⟩ := hne
      have hu := unbundle_complete ht ho hx ha hv l f hf
      rw [e] at hu
      unfold readWord
      rw [List.map_cons, List.cons_append, e, classify_letter ht hm hy]
      simp only
      rw [hlong f1 f2, hu]
      simp [Function.comp_def]

/-- A word for options is not a value. -/
theorem isValue_word {tab : List (Text × Option CliOpt)} {w : Text} {r : List CliOpt × CliOpt × Option Text} (h : readWord tab w = some r) : isValue tab w = false := by
  unfold isValue
  unfold readWord at h
  split
  · rename_i hc; rw [hc] at h; cases h
  · rfl

/-! ### values -/

theorem noOption_iff {opts : List CliOpt} (ht : GoodTable opts) (r : Text) (hr : r ≠ []) : NoOption opts ('-' :: r) ↔
    ¬ IsName opts ('-' :: r) ∧ ((partitionEq ('-' :: r)).2 ≠ none → ¬ IsName opts (partitionEq ('-' :: r)).1) ∧ optionTuples (optStrings opts) ('-' :: r) = [] := by
  have hform : (partitionEq ('-' :: r)).1 = '-' :: r ∧ '=' ∉ '-' :: r ∨ ∃ v, '-' :: r = (partitionEq ('-' :: r)).1 ++ '=' :: v ∧ '=' ∉ (partitionEq ('-' :: r)).1 := by
    rcases partitionEq_spec ('-' :: r) with ⟨v, -, h2, h3⟩ | ⟨h1, h2⟩
    · exact .inr ⟨v, h2, h3⟩
    · exact .inl ⟨by rw [h1], h2⟩
  by_cases hl : "--".toList <+: '-' :: r
  · have htu : optionTuples (optStrings opts) ('-' :: r) = [] ↔ ∀ n, IsName opts n → ¬ (partitionEq ('-' :: r)).1 <+: n := by
      unfold optionTuples
      rw [if_pos ((long_iff _).mpr hl), List.map_eq_nil_iff, List.filter_eq_nil_iff]
      constructor
      · intro h n hn hpre
        obtain ⟨e, he, rfl⟩ := isName_iff.mp hn
        exact h e he (List.isPrefixOf_iff_prefix.mpr hpre)
      · intro h e he hpre
        exact h e.1 (isName_iff.mpr ⟨e, he, rfl⟩) (List.isPrefixOf_iff_prefix.mp hpre)
    rw [htu]
    constructor
    · intro h
      have h1 := h.1 hl _ hform
      refine ⟨fun hn => ?_, fun _ hn => h1 _ hn (List.prefix_refl _), h1⟩
      have : (partitionEq ('-' :: r)).1 = '-' :: r := by rw [partitionEq_whole _ (goodName_eq (ht.name hn))]
      exact h1 _ hn (by rw [this]; exact List.prefix_refl _)
    · rintro ⟨-, -, h⟩
      refine ⟨fun _ p hp n hn => ?_, fun h' => absurd hl h'⟩
      have : p = (partitionEq ('-' :: r)).1 := by
        rcases hp with ⟨rfl, h1⟩ | ⟨v, h1, h2⟩
        · rw [partitionEq_whole _ h1]
        · rw [h1, partitionEq_at p v h2]
      rw [this]
      exact h n hn
  · have htu : optionTuples (optStrings opts) ('-' :: r) = [] ↔ ∀ n, IsName opts n → ¬ '-' :: r <+: n ∧ ∀ c t, '-' :: r = '-' :: c :: t → n ≠ ['-', c] := by
      unfold optionTuples
      rw [if_neg (fun h => hl ((long_iff _).mp h)), List.filterMap_eq_nil_iff]
      constructor
      · intro h n hn
        obtain ⟨e, he, rfl⟩ := isName_iff.mp hn
        have := h e he
        split at this
        · cases this
        · rename_i h1
          split at this
          · cases this
          · rename_i h2
            refine ⟨fun hq => h2 (List.isPrefixOf_iff_prefix.mpr hq), fun c t e' => ?_⟩
            rw [e'] at h1
            exact h1
      · intro h e he
        obtain ⟨h1, h2⟩ := h e.1 (isName_iff.mpr ⟨e, he, rfl⟩)
        rw [if_neg, if_neg (fun hq => h1 (List.isPrefixOf_iff_prefix.mp hq))]
        cases r with
        | nil => exact absurd rfl hr
        | cons c t => exact h2 c t rfl
    rw [htu]
    constructor
    · intro h
      have h1 := h.2 hl
      refine ⟨fun hn => (h1 _ hn).1 (List.prefix_refl _), fun hne hn => ?_, h1⟩
      rcases hform with ⟨e1, e2⟩ | ⟨v, e1, -⟩
      · exact (h1 _ hn).1 (by rw [e1]; exact List.prefix_refl _)
      · rcases goodName_cases (ht.name hn) with ⟨c, e2, -⟩ | ⟨c, t, e2⟩
        · rw [e2] at e1
          exact (h1 _ hn).2 c _ e1 e2
        · rw [e2] at e1
          exact hl (dashes_iff.mpr ⟨_, e1⟩)
    · rintro ⟨-, -, h⟩
      exact ⟨fun h' => absurd h' hl, fun _ => h⟩

theorem isValue_iff {opts : List CliOpt} (ht : GoodTable opts) {w : Text} : isValue (optStrings opts) w = true ↔ ValueWord opts w := by
  by_cases hp : Plain w
  · exact ⟨fun _ => .inl hp, fun _ => by unfold isValue; rw [classify_plain hp]⟩
  obtain ⟨r, rfl⟩ : ∃ r, w = '-' :: r := by
    by_contra hc
    exact hp (fun t e => hc ⟨t, e⟩)
  by_cases hw : '-' :: r = "--".toList
  · constructor
    · intro h; unfold isValue classify at h; rw [if_pos hw] at h; cases h
    · rintro (h | h | ⟨-, -, h⟩)
      · exact absurd h hp
      · rw [hw] at h; exact absurd h (by decide)
      · have := h.1 (by rw [hw]; exact List.prefix_refl _) _ (.inl ⟨rfl, by rw [hw]; decide⟩) "--help".toList (.inr (.inr rfl))
        rw [hw] at this
        exact absurd ⟨"help".toList, rfl⟩ this
  have hval : isValue (optStrings opts) ('-' :: r) = true ↔ classify (optStrings opts) ('-' :: r) = some .value := by
    unfold isValue
    split
    · rename_i h; exact ⟨fun _ => h, fun _ => rfl⟩
    · rename_i h; exact ⟨fun h' => (by cases h'), fun h' => absurd h' h⟩
  rw [hval]
  rw [classify_dash r hw]
  by_cases hr : r = []
  · subst hr
    have : findName (optStrings opts) ['-'] = none := by
      rw [findName_none]
      intro h
      rcases goodName_cases (ht.name h) with ⟨c, e, -⟩ | ⟨c, t, e⟩ <;> cases e
    rw [this]
    exact ⟨fun _ => .inr (.inl rfl), fun _ => rfl⟩
  have hspec : ValueWord opts ('-' :: r) ↔ (NegNumber ('-' :: r) ∨ ' ' ∈ '-' :: r) ∧ NoOption opts ('-' :: r) := by
    constructor
    · rintro (h | h | ⟨h, -, h'⟩)
      · exact absurd h hp
      · exact absurd (by cases h; rfl) hr
      · exact ⟨h, h'⟩
    · rintro ⟨h, h'⟩
      exact .inr (.inr ⟨h, ⟨r, rfl⟩, h'⟩)
  rw [hspec]
  have hbool : (isNegNumber ('-' :: r) || ('-' :: r).contains ' ') = true ↔ (NegNumber ('-' :: r) ∨ ' ' ∈ '-' :: r) := by
    rw [Bool.or_eq_true, isNegNumber_iff, List.contains_iff_mem]
  rw [← hbool, noOption_iff ht r hr]
  rcases hf : findName (optStrings opts) ('-' :: r) with _ | o
  · simp only
    rw [if_neg hr]
    have hnn := findName_none.mp hf
    rcases hpe : (partitionEq ('-' :: r)).2 with _ | v
    · simp only [hnn, not_false_eq_true, ne_eq, not_true_eq_false, false_implies, true_and]
      rcases hto : optionTuples (optStrings opts) ('-' :: r) with _ | ⟨t, _ | ⟨t', ts⟩⟩
      · simp only [and_true]
        split <;> simp_all
      · simp
      · simp
    · rcases hfe : findName (optStrings opts) (partitionEq ('-' :: r)).1 with _ | o
      · simp only [hnn, not_false_eq_true, ne_eq, reduceCtorEq, true_implies, true_and, findName_none.mp hfe]
        rcases hto : optionTuples (optStrings opts) ('-' :: r) with _ | ⟨t, _ | ⟨t', ts⟩⟩
        · simp only [and_true]
          split <;> simp_all
        · simp
        · simp
      · have : IsName opts (partitionEq ('-' :: r)).1 := isName_iff.mpr ⟨_, findName_mem hfe, rfl⟩
        simp [this]
  · have : IsName opts ('-' :: r) := isName_iff.mpr ⟨_, findName_mem hf, rfl⟩
    simp [this]

end Radvel
