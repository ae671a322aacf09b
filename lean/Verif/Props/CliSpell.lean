import Verif.Props.CliDir

/-!
# C178: the spellings of one command line mean the same
-/

namespace Radvel

/-! ### words that can take the place of each other -/

theorem followers_stop (tab : List (Text × Option CliOpt)) (o : CliOpt) (pre rest : List Text) (a : Text) (ha : isValue tab a = false) :
    followers tab o (pre ++ a :: rest) = followers tab o pre ∧ (followers tab o pre).length ≤ pre.length := by
  have h1 : ∀ l : List Text, (l ++ a :: rest).takeWhile (isValue tab) = l.takeWhile (isValue tab) := by
    intro l
    induction l with
    | nil => simp [ha]
    | cons b l ih =>
      rw [List.cons_append, List.takeWhile_cons, List.takeWhile_cons, ih]
  unfold followers
  split
  · exact ⟨rfl, by simp⟩
  · refine ⟨?_, ?_⟩
    · cases pre with
      | nil => simp [ha]
      | cons b l => simp
    · exact ((List.takeWhile_prefix _).length_le).trans (List.length_take_le' _ _)
  · exact ⟨h1 pre, (List.takeWhile_prefix _).length_le⟩

/-- If two lists of words do the same at the start of what is left, they do the same behind any words. -/
theorem parseWords_congr {opts : List CliOpt} {a b : Text} {as bs : List Text} (ha : isValue (optStrings opts) a = false) (hb : isValue (optStrings opts) b = false)
    (h : ∀ d, parseWords opts (a :: as) d = parseWords opts (b :: bs) d) : ∀ (k : Nat) (pre : List Text) (d : Dict Text ArgVal), pre.length ≤ k →
    parseWords opts (pre ++ a :: as) d = parseWords opts (pre ++ b :: bs) d := by
  intro k
  induction k with
  | zero =>
    intro pre d hk
    have : pre = [] := List.length_eq_zero_iff.mp (by omega)
    subst this
    exact h d
  | succ k ih =>
    intro pre d hk
    cases pre with
    | nil => exact h d
    | cons w pre =>
      simp only [List.length_cons] at hk
      rw [List.cons_append, List.cons_append]
      rcases hr : readWord (optStrings opts) w with _ | ⟨fs, o, _ | v⟩
      · rw [parseWords_none hr, parseWords_none hr]
      · obtain ⟨e1, e2⟩ := followers_stop (optStrings opts) o pre as a ha
        obtain ⟨e3, -⟩ := followers_stop (optStrings opts) o pre bs b hb
        rw [parseWords_apart hr, parseWords_apart hr, e1, e3, List.drop_append_of_le_length e2, List.drop_append_of_le_length e2]
        congr 1
        funext x
        exact ih _ _ (by rw [List.length_drop]; omega)
      · rw [parseWords_attached hr, parseWords_attached hr]
        congr 1
        funext x
        exact ih _ _ (by omega)

theorem parseArgs_congr (c : SubCmd) {a b : Text} {as bs : List Text} (ha : isValue (optStrings c.opts) a = false) (hb : isValue (optStrings c.opts) b = false)
    (h : ∀ d, parseWords c.opts (a :: as) d = parseWords c.opts (b :: bs) d) (pre : List Text) : parseArgs (c.word :: (pre ++ a :: as)) = parseArgs (c.word :: (pre ++ b :: bs)) := by
  rw [parseArgs_word, parseArgs_word, parseWords_congr ha hb h pre.length pre _ le_rfl]

theorem parseWords_refused {opts : List CliOpt} {a : Text} {as : List Text} (ha : isValue (optStrings opts) a = false) (hr : readWord (optStrings opts) a = none) :
    ∀ (k : Nat) (pre : List Text) (d : Dict Text ArgVal), pre.length ≤ k → parseWords opts (pre ++ a :: as) d = none := by
  intro k
  induction k with
  | zero =>
    intro pre d hk
    have : pre = [] := List.length_eq_zero_iff.mp (by omega)
    subst this
    exact parseWords_none hr _ _
  | succ k ih =>
    intro pre d hk
    cases pre with
    | nil => exact parseWords_none hr _ _
    | cons w pre =>
      simp only [List.length_cons] at hk
      rw [List.cons_append]
      rcases hw : readWord (optStrings opts) w with _ | ⟨fs, o, _ | v⟩
      · rw [parseWords_none hw]
      · obtain ⟨e1, e2⟩ := followers_stop (optStrings opts) o pre as a ha
        rw [parseWords_apart hw, e1, List.drop_append_of_le_length e2]
        rcases give o (followers (optStrings opts) o pre) with _ | x
        · rfl
        · exact ih _ _ (by rw [List.length_drop]; omega)
      · rw [parseWords_attached hw]
        rcases give o [v] with _ | x
        · rfl
        · exact ih _ _ (by omega)

/-- What a word that stands for a name is taken for. -/
theorem classify_stands {opts : List CliOpt} (ht : GoodTable opts) {w n : Text} (hn : IsName opts n) (h : Stands opts w n) :
    classify (optStrings opts) w = classify (optStrings opts) n ∧ ∃ t, classify (optStrings opts) n = some (.opt t) := by
  obtain ⟨⟨n', r⟩, he, rfl⟩ := isName_iff.mp hn
  have h1 := classify_named ht he
  refine ⟨?_, _, h1⟩
  rcases h with rfl | ⟨h2, h3, h4, h5⟩
  · rfl
  · rw [(classify_abbr ht he h2 h3 h4 h5).1]
    exact h1.symm

/-- **C178**: an abbreviation that fits one name only can take its place anywhere in any command line. -/
theorem C178_abbreviation (c : SubCmd) (w n : Text) (hn : IsName c.opts n) (h : Stands c.opts w n) (pre post : List Text) :
    parseArgs (c.word :: (pre ++ w :: post)) = parseArgs (c.word :: (pre ++ n :: post)) := by
  obtain ⟨h1, t, h2⟩ := classify_stands (goodTable c) hn h
  refine parseArgs_congr c ?_ ?_ (fun d => ?_) pre
  · unfold isValue; rw [h1, h2]
  · unfold isValue; rw [h2]
  · have : readWord (optStrings c.opts) w = readWord (optStrings c.opts) n := by unfold readWord; rw [h1]
    rcases hr : readWord (optStrings c.opts) n with _ | ⟨fs, o, _ | v⟩
    · rw [parseWords_none hr, parseWords_none (this.trans hr)]
    · rw [parseWords_apart hr, parseWords_apart (this.trans hr)]
    · rw [parseWords_attached hr, parseWords_attached (this.trans hr)]

/-- **C178**: a word that begins with `--`, is no name and fits two names is refused wherever it stands, with or without a value attached. -/
theorem C178_ambiguous (c : SubCmd) (w : Text) (hw : "--".toList <+: w) (hn : ¬ IsName c.opts w) (m m' : Text) (hm : IsName c.opts m) (hm' : IsName c.opts m') (hp : w <+: m) (hp' : w <+: m') (hne : m ≠ m')
    (pre post : List Text) : parseArgs (c.word :: (pre ++ w :: post)) = none ∧ ∀ v, parseArgs (c.word :: (pre ++ (w ++ '=' :: v) :: post)) = none := by
  have ht := goodTable c
  have heq := prefix_no_eq ht hm hp
  have key : ∀ q, (q = w ∨ ∃ v, q = w ++ '=' :: v) → classify (optStrings c.opts) q = none := by
    intro q hq
    rcases hc : classify (optStrings c.opts) q with _ | _ | t | _
    · rfl
    · exfalso
      have hv : isValue (optStrings c.opts) q = true := by unfold isValue; rw [hc]
      rw [isValue_iff ht] at hv
      obtain ⟨t, rfl⟩ := dashes_iff.mp hw
      rcases hv with hv | hv | ⟨-, -, hv, -⟩
      · rcases hq with rfl | ⟨v, rfl⟩ <;> exact hv _ rfl
      · rcases hq with rfl | ⟨v, rfl⟩ <;> cases hv
      · refine hv ?_ ('-' :: '-' :: t) ?_ m hm hp
        · rcases hq with rfl | ⟨v, rfl⟩
          · exact hw
          · exact hw.trans (List.prefix_append _ _)
        · rcases hq with rfl | ⟨v, rfl⟩
          · exact .inl ⟨rfl, heq⟩
          · exact .inr ⟨v, rfl, heq⟩
    · exfalso
      obtain ⟨hmem, hcase⟩ := classify_opt ht hc
      have hname := isName_iff.mpr ⟨_, hmem, rfl⟩
      have hpart : partitionEq q = (w, if q = w then none else (partitionEq q).2) := by
        rcases hq with rfl | ⟨v, rfl⟩
        · rw [partitionEq_whole _ heq]; simp
        · rw [partitionEq_at _ v heq]; simp
      have hfirst : (partitionEq q).1 = w := by rw [hpart]
      rcases hcase with ⟨h1, -⟩ | ⟨v, h1, -, -⟩ | ⟨p, h1, h2, h3, h4, h5⟩ | ⟨x, y, a, h1, h2, h3, -, -⟩
      · have : partitionEq q = (q, none) := partitionEq_whole _ (by rw [h1]; exact goodName_eq (ht.name hname))
        rw [this] at hfirst
        exact hn (by rw [← hfirst, h1]; exact hname)
      · have : partitionEq q = (t.name, some v) := by rw [h1]; exact partitionEq_at _ v (goodName_eq (ht.name hname))
        rw [this] at hfirst
        exact hn (by rw [← hfirst]; exact hname)
      · have hpe := prefix_no_eq ht hname h3
        have : p = w := by
          rcases h5 with ⟨h5, -⟩ | ⟨v, h5, -⟩
          · rw [← hfirst, h5, partitionEq_whole _ hpe]
          · rw [← hfirst, h5, partitionEq_at _ v hpe]
        subst this
        exact hne ((h4 m hm hp).trans (h4 m' hm' hp').symm)
      · have hl : "--".toList <+: q := by
          rcases hq with rfl | ⟨v, rfl⟩
          · exact hw
          · exact hw.trans (List.prefix_append _ _)
        obtain ⟨s, hs⟩ := dashes_iff.mp hl
        rw [h1] at hs
        cases hs
        rw [h3] at hname
        rcases goodName_cases (ht.name hname) with ⟨c', e, hc'⟩ | ⟨c', s', e⟩
        · cases e; exact hc' rfl
        · cases e
    · exfalso
      obtain ⟨t, rfl⟩ := dashes_iff.mp hw
      -- a name begins with `w`, so the word fits something
      have hqd : ∃ r, q = '-' :: r ∧ r ≠ [] := by
        rcases hq with rfl | ⟨v, rfl⟩
        · exact ⟨_, rfl, by simp⟩
        · exact ⟨_, rfl, by simp⟩
      obtain ⟨r, rfl, hr⟩ := hqd
      have hno : NoOption c.opts ('-' :: r) := by
        rw [noOption_iff ht r hr]
        by_cases hd : '-' :: r = "--".toList
        · unfold classify at hc; rw [if_pos hd] at hc; cases hc
        rw [classify_dash r hd] at hc
        rcases hf : findName (optStrings c.opts) ('-' :: r) with _ | o
        · rw [hf] at hc
          simp only at hc
          rw [if_neg hr] at hc
          refine ⟨findName_none.mp hf, ?_, ?_⟩
          · intro h1 h2
            rcases hv : (partitionEq ('-' :: r)).2 with _ | v
            · exact h1 hv
            · rcases hf2 : findName (optStrings c.opts) (partitionEq ('-' :: r)).1 with _ | o
              · exact findName_none.mp hf2 h2
              · rw [hv, hf2] at hc; cases hc
          · split at hc
            · cases hc
            · split at hc
              · rename_i h1; exact h1
              · cases hc
              · cases hc
        · rw [hf] at hc; cases hc
      refine hno.1 ?_ ('-' :: '-' :: t) ?_ m hm hp
      · rcases hq with hq | ⟨v, hq⟩
        · rw [hq]; exact hw
        · rw [hq]; exact hw.trans (List.prefix_append _ _)
      · rcases hq with hq | ⟨v, hq⟩
        · exact .inl ⟨hq.symm, by rw [hq]; exact heq⟩
        · exact .inr ⟨v, hq, heq⟩
  have fin : ∀ q, (q = w ∨ ∃ v, q = w ++ '=' :: v) → parseArgs (c.word :: (pre ++ q :: post)) = none := by
    intro q hq
    have hk := key q hq
    rw [parseArgs_word, parseWords_refused (by unfold isValue; rw [hk]) (by unfold readWord; rw [hk]) pre.length pre _ le_rfl]
    rfl
  exact ⟨fin w (.inl rfl), fun v => fin _ (.inr ⟨v, rfl⟩)⟩

/-- **C178**: `name=value` means `name value`, for every option with one value and every value that is not taken for an option. -/
theorem C178_equals (c : SubCmd) (w n v : Text) (o : CliOpt) (ho : o ∈ c.opts) (hn : n ∈ o.names) (h : Stands c.opts w n) (k : Conv) (ha : o.action = .one k) (hv : ValueWord c.opts v) (pre post : List Text) :
    parseArgs (c.word :: (pre ++ (w ++ '=' :: v) :: post)) = parseArgs (c.word :: (pre ++ n :: v :: post)) := by
  have ht := goodTable c
  have hna : ∀ b, o.action ≠ .flag b := by simp [ha]
  have h1 := readWord_complete ht (.equals w n v o ho hn h) (fun _ => hna)
  have h2 := readWord_complete ht (.named n n o ho hn (.inl rfl)) (by simp)
  refine parseArgs_congr c (isValue_word h1) (isValue_word h2) (fun d => ?_) pre
  rw [parseWords_attached h1, parseWords_apart h2]
  have hf : followers (optStrings c.opts) o (v :: post) = [v] := by
    unfold followers
    rw [ha]
    simp [(isValue_iff ht).mpr hv]
  rw [hf]
  rfl

/-- **C178**: flags of one letter may be bundled: `-xyz` means `-x -yz` if `-x` is a flag and `-y` an option. -/
theorem C178_bundle (c : SubCmd) (x y : Char) (o o' : CliOpt) (b : Bool) (ho : o ∈ c.opts) (hx : ['-', x] ∈ o.names) (hb : o.action = .flag b) (ho' : o' ∈ c.opts) (hy : ['-', y] ∈ o'.names) (tail : Text)
    (pre post : List Text) : parseArgs (c.word :: (pre ++ ('-' :: x :: y :: tail) :: post)) = parseArgs (c.word :: (pre ++ ['-', x] :: ('-' :: y :: tail) :: post)) := by
  have ht := goodTable c
  have hx' := letter_ne ht ho hx
  have hy' := letter_ne ht ho' hy
  have hm := mem_strings.mpr ⟨ho, hx⟩
  have hm' := mem_strings.mpr ⟨ho', hy⟩
  have hfy : findName (optStrings c.opts) ['-', y] = some (some o') := (findName_iff ht.nodup).mpr hm'
  have hlong : ∀ {z : Char}, z ≠ '-' → "--".toList.isPrefixOf ['-', z] = false := by
    intro z hz
    rw [← Bool.not_eq_true, long_iff, dashes_iff]
    rintro ⟨t, e⟩
    cases e
    exact hz rfl
  -- the second word alone
  have h2 : readWord (optStrings c.opts) ['-', x] = some ([], o, none) := readWord_complete ht (.named _ _ o ho hx (.inl rfl)) (by simp)
  have h1 : readWord (optStrings c.opts) ('-' :: x :: y :: tail) = (readWord (optStrings c.opts) ('-' :: y :: tail)).map fun r => (o :: r.1, r.2) := by
    conv_lhs => unfold readWord
    rw [classify_letter ht hm hy'.2]
    simp only
    rw [hlong hx'.1, unbundle_step hb, if_neg (by simpa using hy'.1), hfy]
    unfold readWord
    cases tail with
    | nil => rw [classify_named ht hm']; rfl
    | cons z t =>
      simp only
      by_cases hz : z = '='
      · subst hz
        rw [if_pos rfl, show '-' :: y :: '=' :: t = ['-', y] ++ '=' :: t from rfl, classify_equals ht hm']
        simp only
        rw [hlong hy'.1]
      · rw [if_neg hz, classify_letter ht hm' hz]
        simp only
        rw [hlong hy'.1]
  have hstep : ∀ d, parseWords c.opts (['-', x] :: ('-' :: y :: tail) :: post) d = parseWords c.opts (('-' :: y :: tail) :: post) (setFlag d o) := by
    intro d
    have hg : give o [] = some (.bool b) := (give_iff _ _ _).mpr (.flag b hb)
    have hf : followers (optStrings c.opts) o (('-' :: y :: tail) :: post) = [] := by unfold followers; rw [hb]
    rw [parseWords_apart h2, hf, hg]
    show parseWords c.opts (('-' :: y :: tail) :: post) (Dict.set d o.dest (.bool b)) = _
    have : setFlag d o = Dict.set d o.dest (.bool b) := by unfold setFlag; rw [hb]
    rw [this]
  have hval : isValue (optStrings c.opts) ('-' :: x :: y :: tail) = false := by
    unfold isValue
    rw [classify_letter ht hm hy'.2]
  refine parseArgs_congr c hval (isValue_word h2) (fun d => ?_) pre
  rw [hstep]
  rcases hr : readWord (optStrings c.opts) ('-' :: y :: tail) with _ | ⟨fs, o1, _ | v⟩
  · rw [hr] at h1
    rw [parseWords_none h1, parseWords_none hr]
  · rw [hr] at h1
    rw [parseWords_apart h1, parseWords_apart hr]
    rfl
  · rw [hr] at h1
    rw [parseWords_attached h1, parseWords_attached hr]
    rfl

/-- **C178**: a negative number is a value for every subcommand: no option of RadVel begins with a digit. -/
theorem C178_negative (c : SubCmd) (v : Text) (hv : NegNumber v) : ValueWord c.opts v := by
  have ht := goodTable c
  have hdig : ∀ e ∈ optStrings c.opts, ∀ x ∈ e.1.drop 1, x.isDigit = false ∧ x ≠ '.' := by cases c <;> decide +kernel
  obtain ⟨x, r, rfl, hx⟩ : ∃ x r, v = '-' :: x :: r ∧ (x.isDigit = true ∨ x = '.') := by
    obtain ⟨a, b, ha, hb, ⟨rfl, hne⟩ | ⟨rfl, hne⟩⟩ := hv
    · cases a with
      | nil => exact absurd rfl hne
      | cons x a => exact ⟨x, a, rfl, .inl (ha x (by simp))⟩
    · cases a with
      | nil => exact ⟨'.', b, rfl, .inr rfl⟩
      | cons x a => exact ⟨x, _, rfl, .inl (ha x (by simp))⟩
  have hxd : x ≠ '-' := by
    rintro rfl
    rcases hx with hx | hx
    · revert hx; decide
    · revert hx; decide
  have hno : ∀ n, IsName c.opts n → ∀ q, n ≠ '-' :: x :: q := by
    rintro n hn q rfl
    obtain ⟨e, he, h1⟩ := isName_iff.mp hn
    have := hdig e he x (by rw [h1]; simp)
    rcases hx with hx | hx
    · rw [hx] at this; exact absurd this.1 (by simp)
    · exact this.2 hx
  refine .inr (.inr ⟨.inl hv, ⟨_, rfl⟩, ?_, ?_⟩)
  · intro hl
    obtain ⟨t, e⟩ := dashes_iff.mp hl
    cases e
    exact absurd rfl hxd
  · intro _ n hn
    refine ⟨?_, ?_⟩
    · rintro ⟨q, rfl⟩
      exact hno _ hn (r ++ q) rfl
    · intro c' t e h
      cases e
      exact hno n hn [] h

/-! ### where the spellings surprise -/

theorem stands_of {opts : List CliOpt} {w n : Text} (h1 : "--".toList <+: w) (h2 : ∀ e ∈ optStrings opts, e.1 ≠ w) (h3 : w <+: n) (h4 : ∀ e ∈ optStrings opts, w.isPrefixOf e.1 = true → e.1 = n) :
    Stands opts w n := by
  refine .inr ⟨h1, fun h => ?_, h3, fun m hm hp => ?_⟩
  · obtain ⟨e, he, h5⟩ := isName_iff.mp h
    exact h2 e he h5
  · obtain ⟨e, he, rfl⟩ := isName_iff.mp hm
    exact h4 e he (List.isPrefixOf_iff_prefix.mpr hp)

theorem setup_name (c : SubCmd) : IsName c.opts "--setup".toList := (goodTable c).setup

/-- C178 violated: the same words need not mean the same to all subcommands, although the option is common to them: `--s file` names the setup file for `radvel fit` and is refused by all other subcommands, because
each of them has another option that begins with `--s` (/repo/radvel/cli.py 31, 64-65, 114, 117, 130-131, 162-163, 191, 212, 225). -/
theorem C178_across_violated (pre post : List Text) : parseArgs (SubCmd.fit.word :: (pre ++ "--s".toList :: post)) = parseArgs (SubCmd.fit.word :: (pre ++ "--setup".toList :: post)) ∧
    ∀ c : SubCmd, c ≠ .fit → parseArgs (c.word :: (pre ++ "--s".toList :: post)) = none := by
  refine ⟨C178_abbreviation .fit _ _ (setup_name _) (stands_of ⟨"s".toList, rfl⟩ (by decide +kernel) ⟨"etup".toList, rfl⟩ (by decide +kernel)) pre post, fun c hc => ?_⟩
  obtain ⟨m, hm, hp, hne⟩ : ∃ m, IsName c.opts m ∧ "--s".toList <+: m ∧ "--setup".toList ≠ m := by
    cases c with
    | fit => exact absurd rfl hc
    | mcmc => exact ⟨"--save".toList, isName_iff.mpr ⟨("--save".toList, some (flagOpt ["--save"] "save" true)), by decide +kernel, rfl⟩, ⟨"ave".toList, rfl⟩, by decide⟩
    | ic => exact ⟨"--simple".toList, isName_iff.mpr ⟨("--simple".toList, some (flagOpt ["--simple"] "simple" true)), by decide +kernel, rfl⟩, ⟨"imple".toList, rfl⟩, by decide⟩
    | ns =>
      exact ⟨"--sampler".toList, isName_iff.mpr ⟨("--sampler".toList, some (oneOpt ["--sampler"] "sampler" .str (.str "ultranest".toList) ["dynesty-static", "dynesty-dynamic", "multinest", "ultranest", "nautilus"])),
        by decide +kernel, rfl⟩, ⟨"ampler".toList, rfl⟩, by decide⟩
    | plot => exact ⟨"--sampler".toList, isName_iff.mpr ⟨("--sampler".toList, some samplerOpt), by decide +kernel, rfl⟩, ⟨"ampler".toList, rfl⟩, by decide⟩
    | derive => exact ⟨"--sampler".toList, isName_iff.mpr ⟨("--sampler".toList, some samplerOpt), by decide +kernel, rfl⟩, ⟨"ampler".toList, rfl⟩, by decide⟩
    | table => exact ⟨"--sampler".toList, isName_iff.mpr ⟨("--sampler".toList, some samplerOpt), by decide +kernel, rfl⟩, ⟨"ampler".toList, rfl⟩, by decide⟩
    | report => exact ⟨"--sampler".toList, isName_iff.mpr ⟨("--sampler".toList, some samplerOpt), by decide +kernel, rfl⟩, ⟨"ampler".toList, rfl⟩, by decide⟩
  refine (C178_ambiguous c _ ⟨"s".toList, rfl⟩ ?_ _ m (setup_name c) hm ⟨"etup".toList, rfl⟩ hp hne pre post).1
  intro h
  obtain ⟨e, he, h1⟩ := isName_iff.mp h
  have : ∀ e ∈ optStrings c.opts, e.1 ≠ "--s".toList := by cases c <;> decide +kernel
  exact this e he h1

/-- C178 violated: a count may be negative: `--nensembles -3`, `--nwalkers -3`, `--thin -3`, `--minsteps -3` and `--minTz -3` are accepted by `radvel mcmc` and handed on as they are; nothing checks them
(/repo/radvel/cli.py 82-113). -/
theorem C178_negative_violated (o : CliOpt) (ho : o ∈ SubCmd.opts .mcmc) (ha : o.action = .one .int) (n v : Text) (hn : n ∈ o.names) (hv : NegNumber v) (k : Int) (hk : IntText v k) :
    ∃ d, parseArgs ["mcmc".toList, n, v] = some (some .mcmc, d) ∧ Dict.get? d o.dest = some (.int k) := by
  have hc : ∀ o ∈ SubCmd.opts .mcmc, o.choices = [] := by decide +kernel
  have hg : Gives o [v] (.int k) := .one .int v _ ha (.inl (hc o ho)) (.int v k hk)
  have hs : Spells .mcmc [⟨n, o, [v]⟩] [n, v] :=
    .apart n [] n o [v] _ [] [] (.named _ _ _ ho hn (.inl rfl)) hg (fun w hw => by rw [List.mem_singleton.mp hw]; exact C178_negative .mcmc v hv) .nil
  obtain ⟨d, h1, -⟩ := C144_accepts .mcmc _ _ hs
  exact ⟨d, h1, (C144_unique .mcmc _ _ d hs h1 _ _).mp (.inl ⟨[], _, [], _, rfl, rfl, by simp, hg, rfl⟩)⟩

/-- Non-vacuity of `C178_negative` and `C178_negative_violated`: `radvel mcmc --nensembles -3`. -/
example : ∃ d, parseArgs ["mcmc".toList, "--nensembles".toList, "-3".toList] = some (some .mcmc, d) ∧ Dict.get? d "ensembles".toList = some (.int (-3)) :=
  C178_negative_violated (oneOpt ["--nensembles"] "ensembles" .int (.int 8)) (by decide +kernel) rfl _ _ (by decide +kernel) ((isNegNumber_iff _).mp (by decide +kernel)) (-3) ((pyInt_iff _ _).mp (by decide +kernel))

/-- Non-vacuity of `C178_abbreviation` and `C178_equals`: `radvel mcmc --nst=5` is `radvel mcmc --nsteps 5`. -/
example : parseArgs ["mcmc".toList, "--nst=5".toList] = parseArgs ["mcmc".toList, "--nsteps".toList, "5".toList] :=
  C178_equals .mcmc "--nst".toList "--nsteps".toList "5".toList (oneOpt ["--nsteps"] "nsteps" .float (.int 10000)) (by decide +kernel) (by decide +kernel)
    (stands_of ⟨"nst".toList, rfl⟩ (by decide +kernel) ⟨"eps".toList, rfl⟩ (by decide +kernel)) .float rfl (.inl (plain_of (by decide))) [] []

/-- Non-vacuity of `C178_ambiguous`: `radvel mcmc --n 5` could be steps, walkers or ensembles. -/
example : parseArgs ["mcmc".toList, "--n".toList, "5".toList] = none := by
  refine (C178_ambiguous .mcmc "--n".toList ⟨"n".toList, rfl⟩ ?_ "--nsteps".toList "--nwalkers".toList ?_ ?_ ⟨"steps".toList, rfl⟩ ⟨"walkers".toList, rfl⟩ (by decide) [] _).1
  · intro h
    obtain ⟨e, he, h1⟩ := isName_iff.mp h
    have : ∀ e ∈ optStrings (SubCmd.opts .mcmc), e.1 ≠ "--n".toList := by decide +kernel
    exact this e he h1
  · exact isName_iff.mpr ⟨("--nsteps".toList, some (oneOpt ["--nsteps"] "nsteps" .float (.int 10000))), by decide +kernel, rfl⟩
  · exact isName_iff.mpr ⟨("--nwalkers".toList, some (oneOpt ["--nwalkers"] "nwalkers" .int (.int 50))), by decide +kernel, rfl⟩

/-- Non-vacuity of `C178_bundle`: `radvel ic -ufte` is `radvel ic -u -f -t e`. -/
example : parseArgs ["ic".toList, "-ufte".toList] = parseArgs ["ic".toList, "-u".toList, "-f".toList, "-te".toList] :=
  (C178_bundle .ic 'u' 'f' (flagOpt ["-u", "--un-mixed"] "mixed" false) (flagOpt ["-f", "--fixjitter"] "fixjitter" true) false (by decide +kernel) (by decide +kernel) rfl (by decide +kernel) (by decide +kernel)
    "te".toList [] []).trans
  (C178_bundle .ic 'f' 't' (flagOpt ["-f", "--fixjitter"] "fixjitter" true) (typeOpt (.str "trend".toList) ["nplanets", "e", "trend", "jit", "gp"]) true (by decide +kernel) (by decide +kernel) rfl
    (by decide +kernel) (by decide +kernel) "e".toList ["-u".toList] [])

end Radvel
