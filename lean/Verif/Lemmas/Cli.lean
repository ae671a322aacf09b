import Verif.Lemmas.CliWords
import Verif.Props.Driver

/-!
# Lemmas for the command line
-/

namespace Radvel

theorem convert_iff (choices : List Text) (c : Conv) (t : Text) (x : ArgVal) : convert choices c t = some x ↔ (choices = [] ∨ t ∈ choices) ∧ Written c t x := by
  unfold convert
  by_cases h : choices ≠ [] ∧ t ∉ choices
  · rw [if_pos h]
    constructor
    · intro h'; cases h'
    · rintro ⟨h1 | h1, -⟩
      · exact absurd h1 h.1
      · exact absurd h1 h.2
  · rw [if_neg h]
    have hc : choices = [] ∨ t ∈ choices := by
      by_cases h1 : choices = []
      · exact .inl h1
      · by_cases h2 : t ∈ choices
        · exact .inr h2
        · exact absurd ⟨h1, h2⟩ h
    constructor
    · intro hx
      refine ⟨hc, ?_⟩
      cases c with
      | str => cases hx; exact .str t
      | int =>
        simp only [Option.map_eq_some_iff] at hx
        obtain ⟨n, hn, rfl⟩ := hx
        exact .int t n ((pyInt_iff t n).mp hn)
      | float =>
        simp only [Option.map_eq_some_iff] at hx
        obtain ⟨n, hn, rfl⟩ := hx
        exact .float t n hn
      | bool => cases hx; exact .bool t
      | eval => cases hx; exact .eval t
    · rintro ⟨-, hw⟩
      cases hw with
      | str => rfl
      | int _ n hn => simp [(pyInt_iff t n).mpr hn]
      | float _ x hx => simp [hx]
      | bool => rfl
      | eval => rfl

theorem give_iff (o : CliOpt) (vs : List Text) (x : ArgVal) : give o vs = some x ↔ Gives o vs x := by
  unfold give
  constructor
  · intro h
    split at h
    · rename_i b ha
      split at h
      · rename_i hv; cases h; rw [hv]; exact .flag b ha
      · cases h
    · rename_i c ha
      split at h
      · rename_i v
        obtain ⟨h1, h2⟩ := (convert_iff _ _ _ _).mp h
        exact .one c v x ha h1 h2
      · cases h
    · rename_i ha
      split at h
      · cases h
      · rename_i hv
        cases h
        push Not at hv
        exact .many _ ha hv.1 hv.2
  · intro h
    cases h with
    | flag b ha => rw [ha]; simp
    | one c v _ ha hc hw => rw [ha]; exact (convert_iff _ _ _ _).mpr ⟨hc, hw⟩
    | many _ ha hne hv =>
      rw [ha]
      simp only
      rw [if_neg]
      push Not
      exact ⟨hne, hv⟩

theorem parseWords_nil (opts : List CliOpt) (d : Dict Text ArgVal) : parseWords opts [] d = some d := by rw [parseWords]

theorem parseWords_attached {opts : List CliOpt} {w v : Text} {fs : List CliOpt} {o : CliOpt} (h : readWord (optStrings opts) w = some (fs, o, some v)) (ws : List Text) (d : Dict Text ArgVal) :
    parseWords opts (w :: ws) d = (give o [v]).bind fun x => parseWords opts ws (Dict.set (fs.foldl setFlag d) o.dest x) := by
  rw [parseWords, h]
  simp only
  rcases give o [v] with _ | x <;> rfl

theorem parseWords_apart {opts : List CliOpt} {w : Text} {fs : List CliOpt} {o : CliOpt} (h : readWord (optStrings opts) w = some (fs, o, none)) (ws : List Text) (d : Dict Text ArgVal) :
    parseWords opts (w :: ws) d = (give o (followers (optStrings opts) o ws)).bind fun x =>
      parseWords opts (ws.drop (followers (optStrings opts) o ws).length) (Dict.set (fs.foldl setFlag d) o.dest x) := by
  rw [parseWords, h]
  simp only
  rcases give o (followers (optStrings opts) o ws) with _ | x <;> rfl

theorem parseWords_none {opts : List CliOpt} {w : Text} (h : readWord (optStrings opts) w = none) (ws : List Text) (d : Dict Text ArgVal) : parseWords opts (w :: ws) d = none := by
  rw [parseWords, h]

/-- Setting the values that the uses give, in order. -/
inductive Applied : List OptUse → Dict Text ArgVal → Dict Text ArgVal → Prop
  | nil (d : Dict Text ArgVal) : Applied [] d d
  | cons (u : OptUse) (us : List OptUse) (x : ArgVal) (d d' : Dict Text ArgVal) : Gives u.opt u.vals x → Applied us (Dict.set d u.opt.dest x) d' → Applied (u :: us) d d'

theorem Gives.unique {o : CliOpt} {vs : List Text} {x y : ArgVal} (h : Gives o vs x) (h' : Gives o vs y) : x = y := by
  cases h with
  | flag b hb =>
    cases h' with
    | flag b' hb' => rw [hb] at hb'; cases hb'; rfl
    | many _ h1 h2 => exact absurd rfl h2
  | one c v x ha hc hw =>
    cases h' with
    | one c' _ y ha' hc' hw' =>
      rw [ha] at ha'; cases ha'
      have h1 := (convert_iff [] _ v x).mpr ⟨.inl rfl, hw⟩
      have h2 := (convert_iff [] _ v y).mpr ⟨.inl rfl, hw'⟩
      rw [h1] at h2; cases h2; rfl
    | many _ h1 => rw [ha] at h1; cases h1
  | many _ ha hne hv =>
    cases h' with
    | flag b' hb' => exact absurd rfl hne
    | one c' v _ ha' => rw [ha] at ha'; cases ha'
    | many => rfl

/-- The words that follow an option. -/
theorem followers_spec (tab : List (Text × Option CliOpt)) (o : CliOpt) (ws : List Text) :
    ws = followers tab o ws ++ ws.drop (followers tab o ws).length ∧ ∀ v ∈ followers tab o ws, isValue tab v = true := by
  have key : ∀ l : List Text, l <+: ws → ws = l ++ ws.drop l.length := by
    rintro l ⟨t, rfl⟩; simp
  unfold followers
  split
  · exact ⟨by simp, by simp⟩
  · exact ⟨key _ ((List.takeWhile_prefix _).trans (List.take_prefix _ _)), fun v hv => List.all_eq_true.mp List.all_takeWhile v hv⟩
  · exact ⟨key _ (List.takeWhile_prefix _), fun v hv => List.all_eq_true.mp List.all_takeWhile v hv⟩

/-- The parts of a word. -/
theorem wordFor_parts {opts : List CliOpt} {w : Text} {us : List OptUse} {n : Text} {o : CliOpt} {a : Option Text} (h : WordFor opts w us n o a) :
    (∀ u ∈ us, ∃ b, u.opt.action = .flag b ∧ u.vals = [] ∧ u.opt ∈ opts ∧ u.name ∈ u.opt.names) ∧ o ∈ opts ∧ n ∈ o.names := by
  cases h with
  | named w n o ho hn hs => exact ⟨by simp, ho, hn⟩
  | equals w n v o ho hn hs => exact ⟨by simp, ho, hn⟩
  | letters fs x o tail a hf ho hx ha => exact ⟨letters_flags hf, ho, hx⟩

theorem applied_flags {rest : List OptUse} {d' : Dict Text ArgVal} : ∀ {us : List OptUse} {d : Dict Text ArgVal}, (∀ u ∈ us, ∃ b, u.opt.action = .flag b ∧ u.vals = []) →
    Applied rest ((us.map fun u => u.opt).foldl setFlag d) d' → Applied (us ++ rest) d d' := by
  intro us
  induction us with
  | nil => intro d _ h; exact h
  | cons u us ih =>
    intro d hu h
    obtain ⟨b, h1, h2⟩ := hu u (by simp)
    rw [List.map_cons, List.foldl_cons] at h
    have : setFlag d u.opt = Dict.set d u.opt.dest (.bool b) := by unfold setFlag; rw [h1]
    rw [this] at h
    exact .cons u _ (.bool b) d d' (by rw [h2]; exact .flag b h1) (ih (fun w hw => hu w (by simp [hw])) h)

/-- What is accepted consists of uses of the options. -/
theorem parseWords_sound {opts : List CliOpt} (ht : GoodTable opts) (n : Nat) : ∀ (ws : List Text) (d d' : Dict Text ArgVal), ws.length ≤ n → parseWords opts ws d = some d' →
    ∃ uses : List OptUse, Spelled opts uses ws ∧ Applied uses d d' := by
  induction n with
  | zero =>
    intro ws d d' hn h
    have : ws = [] := List.length_eq_zero_iff.mp (by omega)
    subst this
    rw [parseWords_nil] at h; cases h
    exact ⟨[], .nil, .nil _⟩
  | succ n ih =>
    intro ws d d' hn h
    cases ws with
    | nil =>
      rw [parseWords_nil] at h; cases h
      exact ⟨[], .nil, .nil _⟩
    | cons w ws =>
      simp only [List.length_cons] at hn
      rcases hr : readWord (optStrings opts) w with _ | ⟨fs, o, _ | v⟩
      · rw [parseWords_none hr] at h; cases h
      · obtain ⟨us, nm, hw, rfl⟩ := readWord_sound ht hr
        rw [parseWords_apart hr, Option.bind_eq_some_iff] at h
        obtain ⟨x, hx, h⟩ := h
        obtain ⟨e, hv⟩ := followers_spec (optStrings opts) o ws
        obtain ⟨uses, h1, h2⟩ := ih _ _ d' (by rw [List.length_drop]; omega) h
        have hg := (give_iff _ _ _).mp hx
        refine ⟨_, ?_, applied_flags (fun u hu => ?_) (.cons ⟨nm, o, _⟩ uses x _ _ hg h2)⟩
        · have := Spelled.apart w us nm o _ x uses _ hw hg (fun v hm => (isValue_iff ht).mp (hv v hm)) h1
          rw [← e] at this
          exact this
        · obtain ⟨b, h3, h4, -⟩ := (wordFor_parts hw).1 u hu
          exact ⟨b, h3, h4⟩
      · obtain ⟨us, nm, hw, rfl⟩ := readWord_sound ht hr
        rw [parseWords_attached hr, Option.bind_eq_some_iff] at h
        obtain ⟨x, hx, h⟩ := h
        obtain ⟨uses, h1, h2⟩ := ih _ _ d' (by omega) h
        have hg := (give_iff _ _ _).mp hx
        refine ⟨_, .attached w us nm o v x uses ws hw hg h1, applied_flags (fun u hu => ?_) (.cons ⟨nm, o, _⟩ uses x _ _ hg h2)⟩
        obtain ⟨b, h3, h4, -⟩ := (wordFor_parts hw).1 u hu
        exact ⟨b, h3, h4⟩

theorem gives_not_flag {o : CliOpt} {v : Text} {x : ArgVal} (h : Gives o [v] x) : ∀ b, o.action ≠ .flag b := by
  intro b hb
  cases h with
  | one c _ _ ha => rw [ha] at hb; cases hb
  | many _ ha => rw [ha] at hb; cases hb

/-- The first word of a list of uses is not a value. -/
theorem spelled_head {opts : List CliOpt} (ht : GoodTable opts) {uses : List OptUse} {ws : List Text} (h : Spelled opts uses ws) : ws.takeWhile (isValue (optStrings opts)) = [] := by
  cases h with
  | nil => rfl
  | apart w fs n o vals x uses ws hw =>
    have := isValue_word (readWord_complete ht hw (by simp))
    simp [this]
  | attached w fs n o v x uses ws hw hg =>
    have := isValue_word (readWord_complete ht hw (fun _ => gives_not_flag hg))
    simp [this]

/-- Uses of the options are accepted. -/
theorem parseWords_complete {opts : List CliOpt} (ht : GoodTable opts) {uses : List OptUse} {ws : List Text} (h : Spelled opts uses ws) : ∀ d : Dict Text ArgVal,
    ∃ d', parseWords opts ws d = some d' ∧ Applied uses d d' := by
  induction h with
  | nil => intro d; exact ⟨d, parseWords_nil _ _, .nil _⟩
  | apart w fs n o vals x uses ws hw hg hv hs ih =>
    intro d
    obtain ⟨d', h1, h2⟩ := ih (Dict.set ((fs.map fun u => u.opt).foldl setFlag d) o.dest x)
    have hf : followers (optStrings opts) o (vals ++ ws) = vals := by
      unfold followers
      cases hg with
      | flag b ha => rw [ha]
      | one c v _ ha _ _ => rw [ha]; simp [(isValue_iff ht).mpr (hv v (by simp))]
      | many _ ha _ _ =>
        rw [ha]
        simp only
        rw [List.takeWhile_append_of_pos (fun v hm => (isValue_iff ht).mpr (hv v hm)), spelled_head ht hs, List.append_nil]
    refine ⟨d', ?_, applied_flags (fun u hu => ?_) (.cons ⟨n, o, vals⟩ uses x _ _ hg h2)⟩
    · rw [parseWords_apart (readWord_complete ht hw (by simp)), hf, (give_iff _ _ _).mpr hg, List.drop_left]
      exact h1
    · obtain ⟨b, h3, h4, -⟩ := (wordFor_parts hw).1 u hu
      exact ⟨b, h3, h4⟩
  | attached w fs n o v x uses ws hw hg hs ih =>
    intro d
    obtain ⟨d', h1, h2⟩ := ih (Dict.set ((fs.map fun u => u.opt).foldl setFlag d) o.dest x)
    refine ⟨d', ?_, applied_flags (fun u hu => ?_) (.cons ⟨n, o, [v]⟩ uses x _ _ hg h2)⟩
    · rw [parseWords_attached (readWord_complete ht hw (fun _ => gives_not_flag hg)), (give_iff _ _ _).mpr hg]
      exact h1
    · obtain ⟨b, h3, h4, -⟩ := (wordFor_parts hw).1 u hu
      exact ⟨b, h3, h4⟩

/-- The uses that a list of words spells are uses of the options. -/
theorem spelled_good {opts : List CliOpt} {uses : List OptUse} {ws : List Text} (h : Spelled opts uses ws) : ∀ u ∈ uses, GoodUse opts u := by
  have flags : ∀ {fs : List OptUse}, (∀ u ∈ fs, ∃ b, u.opt.action = .flag b ∧ u.vals = [] ∧ u.opt ∈ opts ∧ u.name ∈ u.opt.names) → ∀ u ∈ fs, GoodUse opts u := by
    intro fs hf u hu
    obtain ⟨b, h1, h2, h3, h4⟩ := hf u hu
    exact ⟨h3, h4, .bool b, by rw [h2]; exact .flag b h1⟩
  induction h with
  | nil => simp
  | apart w fs n o vals x uses ws hw hg hv hs ih =>
    obtain ⟨h1, h2, h3⟩ := wordFor_parts hw
    intro u hu
    rw [List.mem_append, List.mem_cons] at hu
    rcases hu with hu | rfl | hu
    · exact flags h1 u hu
    · exact ⟨h2, h3, x, hg⟩
    · exact ih u hu
  | attached w fs n o v x uses ws hw hg hs ih =>
    obtain ⟨h1, h2, h3⟩ := wordFor_parts hw
    intro u hu
    rw [List.mem_append, List.mem_cons] at hu
    rcases hu with hu | rfl | hu
    · exact flags h1 u hu
    · exact ⟨h2, h3, x, hg⟩
    · exact ih u hu

/-- The plain spelling: full names, values that do not look like options as words of their own. -/
theorem spelled_plain {opts : List CliOpt} : ∀ {uses : List OptUse}, (∀ u ∈ uses, GoodUse opts u ∧ ∀ v ∈ u.vals, Plain v) → Spelled opts uses (uses.flatMap OptUse.words) := by
  intro uses
  induction uses with
  | nil => intro _; exact .nil
  | cons u us ih =>
    intro h
    obtain ⟨⟨h1, h2, x, h3⟩, h4⟩ := h u (by simp)
    exact .apart u.name [] u.name u.opt u.vals x us _ (.named _ _ _ h1 h2 (.inl rfl)) h3 (fun v hv => .inl (h4 v hv)) (ih fun w hw => h w (by simp [hw]))

theorem plain_of {w : Text} (h : w.head? ≠ some '-') : Plain w := by
  intro t e
  rw [e] at h
  exact h rfl

theorem spells_plain {c : SubCmd} {uses : List OptUse} (h : ∀ u ∈ uses, GoodUse c.opts u) (hp : ∀ u ∈ uses, ∀ v ∈ u.vals, v.head? ≠ some '-') : Spells c uses (uses.flatMap OptUse.words) :=
  spelled_plain fun u hu => ⟨h u hu, fun v hv => plain_of (hp u hu v hv)⟩

/-! ### the namespace -/

theorem startNames_get (opts : List CliOpt) (dest : Text) : ∀ d0 : Dict Text ArgVal,
    Dict.get? (opts.foldl (fun d o => if Dict.has d o.dest then d else Dict.set d o.dest o.default) d0) dest =
      match Dict.get? d0 dest with
      | some v => some v
      | none => (opts.find? (fun o => decide (o.dest = dest))).map CliOpt.default := by
  induction opts with
  | nil => intro d0; cases h : Dict.get? d0 dest <;> simp [h]
  | cons o opts ih =>
    intro d0
    rw [List.foldl_cons, ih]
    by_cases hd : o.dest = dest
    · subst hd
      rcases h : Dict.get? d0 o.dest with _ | v
      · have : Dict.has d0 o.dest = false := by simp [Dict.has, h]
        rw [this]; simp [Dict.get?_set_self]
      · have : Dict.has d0 o.dest = true := by simp [Dict.has, h]
        rw [this]; simp [h]
    · have e : Dict.get? (if Dict.has d0 o.dest then d0 else Dict.set d0 o.dest o.default) dest = Dict.get? d0 dest := by
        split
        · rfl
        · exact Dict.get?_set_ne d0 _ hd
      rw [e]
      rcases h : Dict.get? d0 dest with _ | v
      · simp [hd]
      · rfl

theorem applied_get {uses : List OptUse} {d d' : Dict Text ArgVal} (h : Applied uses d d') (dest : Text) :
    (∃ pre u post x, uses = pre ++ u :: post ∧ u.opt.dest = dest ∧ (∀ w ∈ post, w.opt.dest ≠ dest) ∧ Gives u.opt u.vals x ∧ Dict.get? d' dest = some x) ∨
    ((∀ u ∈ uses, u.opt.dest ≠ dest) ∧ Dict.get? d' dest = Dict.get? d dest) := by
  induction h with
  | nil d => exact .inr ⟨by simp, rfl⟩
  | cons u us x d d' hg _ ih =>
    rcases ih with ⟨pre, w, post, y, e, h1, h2, h3, h4⟩ | ⟨h1, h2⟩
    · exact .inl ⟨u :: pre, w, post, y, by rw [e]; rfl, h1, h2, h3, h4⟩
    · by_cases hd : u.opt.dest = dest
      · refine .inl ⟨[], u, us, x, rfl, hd, h1, hg, ?_⟩
        rw [h2, ← hd, Dict.get?_set_self]
      · refine .inr ⟨?_, ?_⟩
        · intro w hw
          rcases List.mem_cons.mp hw with rfl | hw
          · exact hd
          · exact h1 w hw
        · rw [h2, Dict.get?_set_ne d x hd]

theorem start_value (opts : List CliOpt) (dest : Text) :
    (∃ pre o post, opts = pre ++ o :: post ∧ o.dest = dest ∧ (∀ p ∈ pre, p.dest ≠ dest) ∧ Dict.get? (startNames opts) dest = some o.default) ∨
      ((∀ o ∈ opts, o.dest ≠ dest) ∧ Dict.get? (startNames opts) dest = none) := by
  have h := startNames_get opts dest []
  rw [show Dict.get? ([] : Dict Text ArgVal) dest = none from rfl] at h
  change Dict.get? (startNames opts) dest = _ at h
  rw [h]
  rcases hf : opts.find? (fun o => decide (o.dest = dest)) with _ | o
  · exact .inr ⟨by simpa using hf, by simp [hf]⟩
  · obtain ⟨h1, pre, post, h2, h3⟩ := List.find?_eq_some_iff_append.mp hf
    exact .inl ⟨pre, o, post, h2, by simpa using h1, by simpa using h3, by simp [hf]⟩

theorem ValueAfter.unique {opts : List CliOpt} {uses : List OptUse} {dest : Text} {r r' : Option ArgVal} (h : ValueAfter opts uses dest r) (h' : ValueAfter opts uses dest r') : r = r' := by
  have last : ∀ {l : List OptUse} {pre post pre' post' : List OptUse} {u u' : OptUse}, l = pre ++ u :: post → l = pre' ++ u' :: post' → u.opt.dest = dest → u'.opt.dest = dest →
      (∀ w ∈ post, w.opt.dest ≠ dest) → (∀ w ∈ post', w.opt.dest ≠ dest) → u = u' := by
    intro l pre post pre' post' u u' e e' hu hu' hp hp'
    rw [e] at e'
    rcases List.append_eq_append_iff.mp e' with ⟨as, h1, h2⟩ | ⟨bs, h1, h2⟩
    · cases as with
      | nil => simp at h2; exact h2.1
      | cons a as => simp at h2; exact absurd hu' (hp u' (by rw [h2.2]; simp))
    · cases bs with
      | nil => simp at h2; exact h2.1.symm
      | cons a as => simp at h2; exact absurd hu (hp' u (by rw [h2.2]; simp))
  have first : ∀ {pre post pre' post' : List CliOpt} {u u' : CliOpt}, opts = pre ++ u :: post → opts = pre' ++ u' :: post' → u.dest = dest → u'.dest = dest →
      (∀ w ∈ pre, w.dest ≠ dest) → (∀ w ∈ pre', w.dest ≠ dest) → u = u' := by
    intro pre post pre' post' u u' e e' hu hu' hp hp'
    rw [e] at e'
    rcases List.append_eq_append_iff.mp e' with ⟨as, h1, h2⟩ | ⟨bs, h1, h2⟩
    · cases as with
      | nil => simp at h2; exact h2.1
      | cons a as => simp at h2; exact absurd hu (hp' u (by rw [h1, h2.1]; simp))
    · cases bs with
      | nil => simp at h2; exact h2.1.symm
      | cons a as => simp at h2; exact absurd hu' (hp u' (by rw [h1, h2.1]; simp))
  rcases h with ⟨pre, u, post, x, e, h1, h2, h3, rfl⟩ | ⟨h0, h⟩
  · rcases h' with ⟨pre', u', post', x', e', h1', h2', h3', rfl⟩ | ⟨h0', -⟩
    · have := last e e' h1 h1' h2 h2'
      subst this
      rw [h3.unique h3']
    · exact absurd h1 (h0' u (by rw [e]; simp))
  · rcases h' with ⟨pre', u', post', x', e', h1', h2', h3', rfl⟩ | ⟨-, h'⟩
    · exact absurd h1' (h0 u' (by rw [e']; simp))
    · rcases h with ⟨pre, o, post, e, h1, h2, rfl⟩ | ⟨h1, rfl⟩
      · rcases h' with ⟨pre', o', post', e', h1', h2', rfl⟩ | ⟨h1', rfl⟩
        · rw [first e e' h1 h1' h2 h2']
        · exact absurd h1 (h1' o (by rw [e]; simp))
      · rcases h' with ⟨pre', o', post', e', h1', h2', rfl⟩ | ⟨h1', rfl⟩
        · exact absurd h1' (h1 o' (by rw [e']; simp))
        · rfl

/-! ### the tables -/

theorem goodTable (c : SubCmd) : GoodTable c.opts where
  nodup := by cases c <;> decide +kernel
  shape := by cases c <;> decide +kernel
  setup := .inl ⟨oneOpt ["-s", "--setup"] "setupfn" .str .none, by cases c <;> decide +kernel, by decide +kernel⟩

theorem findSub_word (c : SubCmd) : findSub c.word = some c := by cases c <;> decide +kernel

theorem findSub_some {w : Text} {c : SubCmd} (h : findSub w = some c) : w = c.word := by
  have := List.find?_some h
  exact (of_decide_eq_true this).symm

end Radvel
