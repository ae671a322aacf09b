import Verif.Lemmas.NestedCalls

/-! Whole calls of nested sampling. -/

namespace Radvel

/-- The arguments are accepted. -/
structure Accepted (pk : Packages) (a : NsArgs) (s : NsSampler) (w : NsWorld) : Prop where
  installed : pk.installed s = true
  multinest : s = .multinest → content w a.sampler_kwargs = []
  reserved : ∀ k ∈ Radvel.reserved s, Dict.has (content w (a.target s)) k = false

theorem start_bad (pk : Packages) (a : NsArgs) (s : NsSampler) (w : NsWorld) (h : ¬ Accepted pk a s w) : ∃ e w', startOf pk a s w = (.error e, w') ∧ w'.fs = w.fs ∧ w'.calls = w.calls := by
  by_cases hr : ∃ k ∈ reserved s, Dict.has (content w (a.target s)) k = true
  · obtain ⟨k, hk, hh⟩ := hr
    rcases ht : a.target s with _ | i
    · rw [ht] at hh
      simp [content, Dict.has, Dict.get?] at hh
    · rw [ht] at hh
      obtain ⟨e, w', h1, _, h2⟩ := doomed_start pk a s w ht hk hh
      exact ⟨e, w', h1, h2⟩
  · have hr' : ∀ k ∈ reserved s, Dict.has (content w (a.target s)) k = false := by
      intro k hk
      by_contra hh
      exact hr ⟨k, hk, by simpa using hh⟩
    by_cases hm : s = .multinest → content w a.sampler_kwargs = []
    · have hin : pk.installed s = false := by
        by_contra hh
        exact h ⟨by simpa using hh, hm, hr'⟩
      have hraise : nsRaiseIf (!(pk.installed s)) .importError w = (.error .importError, w) := by rw [hin]; rfl
      cases s with
      | multinest =>
        show ∃ e w', startMultinest pk a w = _ ∧ _
        unfold startMultinest
        rw [nsm_of_ok (show nsNonEmpty a.sampler_kwargs w = (.ok false, w) from ?_), nsm_of_ok (show nsRaiseIf false .typeError w = (.ok (), w) from rfl)]
        · unfold runMultinest
          exact ⟨_, _, nsm_of_error hraise, rfl, rfl⟩
        · have := hm rfl
          unfold nsNonEmpty
          rcases hsk : a.sampler_kwargs with _ | j
          · rfl
          · rw [hsk] at this
            change w.heap[j]?.getD [] = [] at this
            simp only
            rw [this]
            rfl
      | ultranest => exact ⟨_, _, nsm_of_error hraise, rfl, rfl⟩
      | nautilus => exact ⟨_, _, nsm_of_error hraise, rfl, rfl⟩
      | dynestyStatic => exact ⟨_, _, nsm_of_error hraise, rfl, rfl⟩
      | dynestyDynamic => exact ⟨_, _, nsm_of_error hraise, rfl, rfl⟩
    · obtain ⟨rfl, hne⟩ := Classical.not_imp.mp hm
      refine ⟨.typeError, w, ?_, rfl, rfl⟩
      show startMultinest pk a w = _
      unfold startMultinest
      rw [nsm_of_ok (show nsNonEmpty a.sampler_kwargs w = (.ok true, w) from ?_)]
      · rfl
      · unfold nsNonEmpty
        rcases hsk : a.sampler_kwargs with _ | j
        · rw [hsk] at hne
          exact absurd rfl hne
        · rw [hsk] at hne
          change ¬ w.heap[j]?.getD [] = [] at hne
          simp only
          rcases hx : w.heap[j]?.getD [] with _ | ⟨x, t⟩
          · exact absurd hx hne
          · rfl

theorem start_typeError (pk : Packages) (a : NsArgs) (w : NsWorld) (hne : content w a.sampler_kwargs ≠ []) : startOf pk a .multinest w = (.error .typeError, w) := by
  show startMultinest pk a w = _
  unfold startMultinest
  rw [nsm_of_ok (show nsNonEmpty a.sampler_kwargs w = (.ok true, w) from ?_)]
  · rfl
  · unfold nsNonEmpty
    rcases hsk : a.sampler_kwargs with _ | j
    · rw [hsk] at hne
      exact absurd rfl hne
    · rw [hsk] at hne
      change ¬ w.heap[j]?.getD [] = [] at hne
      simp only
      rcases hx : w.heap[j]?.getD [] with _ | ⟨x, t⟩
      · exact absurd hx hne
      · rfl

theorem accepted_of_ok {pk : Packages} {a : NsArgs} {s : NsSampler} {w w1 : NsWorld} {r : List (List Fl) × NsEvidence} (h : startOf pk a s w = (.ok r, w1)) : Accepted pk a s w := by
  by_contra hn
  obtain ⟨e, w', h', _⟩ := start_bad pk a s w hn
  rw [h] at h'
  cases h'

/-- What a successful call went through. -/
theorem nsRun_ok {pk : Packages} {post : NsPost} {a : NsArgs} {s : NsSampler} (hs : SamplerName a.sampler s) {w w1 : NsWorld} {t : NsTable} {ev : NsEvidence} (h : nsRun pk post a w = (.ok (t, ev), w1)) :
    ∃ samples w0, post.proper = .ok () ∧ checkResults a w = (.ok (), w) ∧ startOf pk a s w = (.ok (samples, ev), w0) ∧ nsTable post samples = .ok t ∧ saveResults a t ev w0 = (.ok (), w1) := by
  obtain ⟨u, w2, h1, h⟩ := nsm_ok h
  obtain ⟨u', w3, h2, h⟩ := nsm_ok h
  obtain ⟨res, w4, h3, h⟩ := nsm_ok h
  obtain ⟨t', w5, h4, h⟩ := nsm_ok h
  obtain ⟨u'', w6, h5, h⟩ := nsm_ok h
  cases h
  unfold nsLift at h1 h4
  obtain ⟨h4a, rfl⟩ := Prod.mk.inj h4
  obtain ⟨h1a, rfl⟩ := Prod.mk.inj h1
  have hw : w3 = w := by
    unfold checkResults at h2
    split at h2
    · cases h2; rfl
    · split at h2
      · cases h2
      · cases h2; rfl
  subst hw
  rw [startSampler_of hs] at h3
  exact ⟨res.1, w4, h1a, h2, h3, h4a, h5⟩

/-- How a call ends once the sampler is chosen. -/
theorem nsRun_start {pk : Packages} {post : NsPost} {a : NsArgs} {s : NsSampler} (hs : SamplerName a.sampler s) {w : NsWorld} (hp : post.proper = .ok ()) (hc : checkResults a w = (.ok (), w)) :
    nsRun pk post a w = (startOf pk a s >>= fun res => nsLift (nsTable post res.1) >>= fun t => saveResults a t res.2 >>= fun _ => pure (t, res.2)) w := by
  unfold nsRun
  rw [nsm_of_ok (show nsLift post.proper w = (.ok (), w) by unfold nsLift; rw [hp]), nsm_of_ok hc, startSampler_of hs]

theorem save_calls (a : NsArgs) (t : NsTable) (ev : NsEvidence) (w : NsWorld) : (saveResults a t ev w).2.calls = w.calls ∧ (saveResults a t ev w).2.heap = w.heap := by
  unfold saveResults
  rcases a.outdir with _ | d
  · exact ⟨rfl, rfl⟩
  · simp only
    unfold nsWrite
    split_ifs <;> exact ⟨rfl, rfl⟩

theorem after_calls (post : NsPost) (a : NsArgs) (m : NsM (List (List Fl) × NsEvidence)) (w : NsWorld) :
    ((m >>= fun res => nsLift (nsTable post res.1) >>= fun t => saveResults a t res.2 >>= fun _ => pure (t, res.2)) w).2.calls = (m w).2.calls := by
  rw [nsm_bind]
  rcases m w with ⟨r, w1⟩
  rcases r with e | res
  · rfl
  · show ((nsLift (nsTable post res.1) >>= fun t => saveResults a t res.2 >>= fun _ => pure (t, res.2)) w1).2.calls = w1.calls
    rcases ht : nsTable post res.1 with e | t
    · rfl
    · rw [nsm_of_ok (show nsLift (.ok t) w1 = (.ok t, w1) from rfl), nsm_bind]
      have := (save_calls a t res.2 w1).1
      rcases hw : saveResults a t res.2 w1 with ⟨r, w2⟩
      rw [hw] at this
      rcases r with e | u
      · exact this
      · exact this

theorem after_fs (post : NsPost) (a : NsArgs) (ho : a.outdir = none) (m : NsM (List (List Fl) × NsEvidence)) (w : NsWorld) :
    ((m >>= fun res => nsLift (nsTable post res.1) >>= fun t => saveResults a t res.2 >>= fun _ => pure (t, res.2)) w).2.fs = (m w).2.fs := by
  rw [nsm_bind]
  rcases m w with ⟨r, w1⟩
  rcases r with e | res
  · rfl
  · show ((nsLift (nsTable post res.1) >>= fun t => saveResults a t res.2 >>= fun _ => pure (t, res.2)) w1).2.fs = w1.fs
    rcases ht : nsTable post res.1 with e | t
    · rfl
    · rw [nsm_of_ok (show nsLift (.ok t) w1 = (.ok t, w1) from rfl)]
      unfold saveResults
      rw [ho]
      rfl

theorem check_overwrite {a : NsArgs} (h : a.overwrite = true) (w : NsWorld) : checkResults a w = (.ok (), w) := by
  unfold checkResults
  split
  · rfl
  · rw [h]
    simp

theorem check_ok {a : NsArgs} {w : NsWorld} (h : ∀ d, a.outdir = some d → fsExists w.fs (joinPath d "results.hdf5") = true → a.overwrite = true ∨ a.proceed = true) : checkResults a w = (.ok (), w) := by
  unfold checkResults
  split
  · rfl
  · rename_i d hd
    split_ifs with hh
    · simp only [Bool.and_eq_true, Bool.not_eq_true', Bool.or_eq_false_iff] at hh
      rcases h d hd hh.1 with h' | h'
      · rw [hh.2.1] at h'; cases h'
      · rw [hh.2.2] at h'; cases h'
    · rfl

/-! Calls made by the last part. -/

theorem core_calls_ok {pk : Packages} {a : NsArgs} {s : NsSampler} {c : NsCall} {there : Bool} {w w1 : NsWorld} {r : List (List Fl) × NsEvidence} (h : coreOf pk a s c there w = (.ok r, w1)) :
    w1.calls = c :: w.calls ∧ ∃ fs, (pk.sample c fs).1 = .ok r := by
  have sam : ∀ {w w1 : NsWorld} {r : List (List Fl) × NsEvidence}, nsSample pk c w = (.ok r, w1) → w1.calls = c :: w.calls ∧ ∃ fs, (pk.sample c fs).1 = .ok r := by
    intro w w1 r h
    unfold nsSample at h
    obtain ⟨h1, rfl⟩ := Prod.mk.inj h
    exact ⟨rfl, _, h1⟩
  have mk : ∀ {w w1 : NsWorld} {s r i} {u : Unit}, nsMake pk s r i w = (.ok u, w1) → w1.calls = w.calls := by
    intro w w1 s r i u h
    unfold nsMake at h
    obtain ⟨_, rfl⟩ := Prod.mk.inj h
    rfl
  have wr : ∀ {w w1 : NsWorld} {p n} {u : Unit}, nsWrite p n w = (.ok u, w1) → w1.calls = w.calls := by
    intro w w1 p n u h
    unfold nsWrite at h
    split_ifs at h <;> cases h <;> rfl
  have md : ∀ {w w1 : NsWorld} {p b} {u : Unit}, nsMakeDirs p b w = (.ok u, w1) → w1.calls = w.calls := by
    intro w w1 p b u h
    unfold nsMakeDirs at h
    split at h <;> cases h
    rfl
  have dyn : (nsMake pk c.sampler c.restore c.init >>= fun _ => dynestyTail pk a c there) w = (.ok r, w1) → w1.calls = c :: w.calls ∧ ∃ fs, (pk.sample c fs).1 = .ok r := by
    intro h
    obtain ⟨_, w2, h1, h⟩ := nsm_ok h
    obtain ⟨_, w3, h2, h⟩ := nsm_ok h
    obtain ⟨res, w4, h3, h⟩ := nsm_ok h
    obtain ⟨_, w5, h4, h⟩ := nsm_ok h
    cases h
    have e2 : w3.calls = w2.calls := by
      rcases hck : checkpoint a with _ | p
      · rw [hck] at h2
        cases h2; rfl
      · rw [hck] at h2
        unfold dynestyDir at h2
        simp only at h2
        split_ifs at h2
        · cases h2; rfl
        · exact md h2
    have e4 : w1.calls = w4.calls := by
      rcases hck : checkpoint a with _ | p
      · rw [hck] at h4
        cases h4; rfl
      · rw [hck] at h4
        exact wr h4
    rw [e4, (sam h3).1, e2, mk h1]
    exact ⟨rfl, (sam h3).2⟩
  cases s with
  | ultranest =>
    obtain ⟨_, w2, h1, h⟩ := nsm_ok h
    rw [(sam h).1, mk h1]
    exact ⟨rfl, (sam h).2⟩
  | nautilus =>
    obtain ⟨_, w2, h1, h⟩ := nsm_ok h
    rw [(sam h).1, mk h1]
    exact ⟨rfl, (sam h).2⟩
  | dynestyStatic => exact dyn h
  | dynestyDynamic => exact dyn h
  | multinest =>
    obtain ⟨_, w2, h1, h⟩ := nsm_ok h
    obtain ⟨res, w3, h2, h⟩ := nsm_ok h
    obtain ⟨_, w4, h3, h⟩ := nsm_ok h
    cases h
    have e3 : w1.calls = w3.calls := by
      rcases hd : a.outdir with _ | d
      · rw [hd] at h3
        change nsRemoveTree _ _ = _ at h3
        unfold nsRemoveTree at h3
        split_ifs at h3
        · cases h3; rfl
        · cases h3
      · rw [hd] at h3
        cases h3; rfl
    rw [e3, (sam h2).1, md h1]
    exact ⟨rfl, (sam h2).2⟩

/-! Files. -/

theorem fsExists_set (fs : FS) (p q : Text) (n : FsNode) (h : fsExists fs p = true) : fsExists (Dict.set fs q n) p = true := by
  unfold fsExists at *
  rw [Dict.has_iff] at *
  rw [Dict.mem_keys_set]
  exact .inr h

theorem fsExists_set_self (fs : FS) (p : Text) (n : FsNode) : fsExists (Dict.set fs p n) p = true := by
  unfold fsExists
  rw [Dict.has_iff, Dict.mem_keys_set]
  exact .inl rfl

theorem fsIsDir_exists {fs : FS} {p : Text} (h : fsIsDir fs p = true) : fsExists fs p = true := by
  unfold fsIsDir at h
  unfold fsExists Dict.has
  split at h
  · rename_i hg; rw [hg]; rfl
  · cases h

theorem mkDir_ok {fs fs' : FS} {p : Text} (h : mkDir fs p = .ok fs') : fs' = Dict.set fs p .dir ∧ (dirName p = [] ∨ fsIsDir fs (dirName p) = true) := by
  unfold mkDir at h
  split_ifs at h with h1 h2 h3
  cases h
  exact ⟨rfl, h3⟩

theorem fsIsDir_set_self (fs : FS) (p : Text) : fsIsDir (Dict.set fs p .dir) p = true := by
  unfold fsIsDir
  rw [Dict.get?_set_self]

theorem makeDirs_isDir : ∀ (n : Nat) (fs fs' : FS) (p : Text) (b : Bool), makeDirs n fs p b = .ok fs' → fsIsDir fs' p = true := by
  intro n
  induction n with
  | zero =>
    intro fs fs' p b h
    unfold makeDirs at h
    split_ifs at h with h1
    · cases h
      simp only [Bool.and_eq_true] at h1
      exact h1.2
    · rw [(mkDir_ok h).1]
      exact fsIsDir_set_self _ _
  | succ n ih =>
    intro fs fs' p b h
    unfold makeDirs at h
    split_ifs at h with h1 h2
    · rcases hr : makeDirs n fs (dirName p) b with e | fs2
      · rw [hr] at h; cases h
      · rw [hr] at h
        simp only at h
        split_ifs at h with h3
        · cases h
          simp only [Bool.and_eq_true] at h3
          exact h3.2
        · rw [(mkDir_ok h).1]
          exact fsIsDir_set_self _ _
    · cases h
      simp only [Bool.and_eq_true] at h2
      exact h2.2
    · rw [(mkDir_ok h).1]
      exact fsIsDir_set_self _ _

theorem makeDirs_parent (n : Nat) (fs fs' : FS) (p : Text) (b : Bool) (h : makeDirs (n + 1) fs p b = .ok fs') : dirName p = [] ∨ fsExists fs' (dirName p) = true := by
  unfold makeDirs at h
  split_ifs at h with h1 h2
  · rcases hr : makeDirs n fs (dirName p) b with e | fs2
    · rw [hr] at h; cases h
    · have hd := makeDirs_isDir _ _ _ _ _ hr
      rw [hr] at h
      simp only at h
      split_ifs at h with h3
      · cases h
        exact .inr (fsIsDir_exists hd)
      · rw [(mkDir_ok h).1]
        exact .inr (fsExists_set _ _ _ _ (fsIsDir_exists hd))
  · cases h
    by_cases hd : dirName p = []
    · exact .inl hd
    · exact .inr (by simpa using fun he => h1 ⟨hd, he⟩)
  · by_cases hd : dirName p = []
    · exact .inl hd
    · rw [(mkDir_ok h).1]
      exact .inr (fsExists_set _ _ _ _ (by simpa using fun he => h1 ⟨hd, he⟩))

theorem makeDirs_again (n : Nat) (fs : FS) (p : Text) (hd : fsIsDir fs p = true) (hp : dirName p = [] ∨ fsExists fs (dirName p) = true) : makeDirs n fs p true = .ok fs := by
  cases n with
  | zero =>
    unfold makeDirs
    simp [hd]
  | succ n =>
    unfold makeDirs
    rw [if_neg]
    · simp [hd]
    · rintro ⟨h1, h2⟩
      rcases hp with hp | hp
      · exact h1 hp
      · rw [hp] at h2; cases h2

theorem length_dropWhile_le' {α : Type} (q : α → Bool) (l : List α) : (l.dropWhile q).length ≤ l.length := by
  induction l with
  | nil => exact Nat.le_refl _
  | cons x t ih =>
    rw [List.dropWhile_cons]
    split
    · simp only [List.length_cons]; omega
    · exact Nat.le_refl _

theorem dirName_length (p : Text) : (dirName p).length ≤ p.length := by
  unfold dirName
  simp only
  have h1 : ((p.reverse.dropWhile (· ≠ '/')).reverse).length ≤ p.length := by
    rw [List.length_reverse]
    refine (length_dropWhile_le' _ _).trans ?_
    rw [List.length_reverse]
  split_ifs
  · exact h1
  · rw [List.length_reverse]
    refine (length_dropWhile_le' _ _).trans ?_
    rw [List.length_reverse]
    exact h1

theorem joinPath_length (d : Text) (b : String) : (joinPath d b).length ≥ d.length + b.toList.length := by
  unfold joinPath
  split_ifs
  · rw [List.length_append]
  · rw [List.length_append, List.length_cons]
    omega

theorem get?_filter_key (fs : FS) (q : Text → Bool) (p : Text) : Dict.get? (fs.filter fun e => q e.1) p = if q p then Dict.get? fs p else none := by
  induction fs with
  | nil => simp [Dict.get?]
  | cons x t ih =>
    rw [List.filter_cons]
    by_cases hx : q x.1 = true
    · rw [if_pos hx]
      simp only [Dict.get?]
      by_cases hp : x.1 = p
      · rw [if_pos hp, if_pos hp]
        rw [hp] at hx
        rw [if_pos hx]
      · rw [if_neg hp, if_neg hp]
        exact ih
    · rw [if_neg hx, ih]
      simp only [Dict.get?]
      by_cases hp : x.1 = p
      · rw [hp] at hx
        rw [if_neg hx, if_neg hx]
      · rw [if_neg hp]

/-- A step that changes no dictionary. -/
theorem content_at (w : NsWorld) (i : Nat) : content w (some i) = w.at i := rfl

/-- After a successful call `resume` is in the dictionary that radvel adds to. -/
theorem start_resume {pk : Packages} {a : NsArgs} {s : NsSampler} {w w0 : NsWorld} {r : List (List Fl) × NsEvidence} (h : startOf pk a s w = (.ok r, w0)) {i : Nat} (hi : a.target s = some i) (hne : content w (some i) ≠ []) :
    Dict.has (w0.at i) "resume".toList = true ∧ (s = .multinest → content w0 a.sampler_kwargs = []) := by
  have hlt : ∀ {w : NsWorld}, w.at i ≠ [] → i < w.heap.length := by
    intro w hw
    by_contra hge
    exact hw (by unfold NsWorld.at; rw [List.getElem?_eq_none (by omega)]; rfl)
  have hput : ∀ (w : NsWorld) (k : String) (v : NsValue), w.at i ≠ [] → Dict.has ((nsPut i k v w).2.at i) k.toList = true := by
    intro w k v hw
    rw [put_eq, setAt_at (hlt hw), Dict.has_iff, Dict.mem_keys_set]
    exact .inl rfl
  have happ : ∀ {q : Option Nat} {w w' : NsWorld} {j : Nat}, nsOrEmpty q w = (.ok j, w') → w.at i ≠ [] → w'.at i = w.at i := by
    intro q w w' j h hw
    obtain ⟨j', ext, h1, _⟩ := orEmpty_spec q w
    rw [h1] at h
    cases h
    exact at_append hw
  have hdyn : ∀ s, a.run_kwargs = some i → runDynesty pk s a.outdir a.proceed a.sampler_kwargs a.run_kwargs w = (.ok r, w0) → Dict.has (w0.at i) "resume".toList = true := by
    intro s hi h
    obtain ⟨_, w1, h1, g1⟩ := nsm_ok h
    obtain ⟨_, rfl⟩ := raiseIf_ok h1
    obtain ⟨j, w2, h2, g2⟩ := nsm_ok g1
    obtain ⟨hj, rfl⟩ := orEmpty_ok_nonempty (by rw [hi]; exact hne) h2
    rw [hi] at hj
    cases hj
    obtain ⟨j, w3, h3, g3⟩ := nsm_ok g2
    have h3i := happ h3 hne
    obtain ⟨_, w4, h4, g4⟩ := nsm_ok g3
    obtain ⟨rfl, _⟩ := reject_ok h4
    obtain ⟨_, w5, h5, g5⟩ := nsm_ok g4
    have hk := hput w4 "resume" (.flag a.proceed) (by rw [h3i]; exact hne)
    rw [h5] at hk
    have hrest := keeps_ok (?_ : KeepsKeys _) g5 hk
    · exact hrest
    · exact keeps_bind (keeps_reject _ _) fun _ => keeps_bind (keeps_putPath _ _ _ _) fun _ => keeps_bind (keeps_get _) fun _ => keeps_bind (keeps_there _) fun _ =>
        keeps_bind (keeps_dynestyMake _ _ _ _ _ _ _) fun _ => keeps_bind (keeps_dynestyDir _ _) fun _ => keeps_bind (keeps_get _) fun _ => keeps_bind (keeps_sample _ _) fun _ =>
        keeps_bind (keeps_dynestySave _) fun _ => keeps_pure _
  cases s with
  | dynestyStatic => exact ⟨hdyn _ hi h, fun hm => by cases hm⟩
  | dynestyDynamic => exact ⟨hdyn _ hi h, fun hm => by cases hm⟩
  | ultranest =>
    refine ⟨?_, fun hm => by cases hm⟩
    change a.sampler_kwargs = some i at hi
    obtain ⟨_, w1, h1, g6⟩ := nsm_ok h
    obtain ⟨_, rfl⟩ := raiseIf_ok h1
    obtain ⟨j, w2, h2, g7⟩ := nsm_ok g6
    have h2i := happ h2 hne
    obtain ⟨j, w3, h3, g8⟩ := nsm_ok g7
    obtain ⟨hj, rfl⟩ := orEmpty_ok_nonempty (by rw [hi, content_at, h2i]; exact hne) h3
    rw [hi] at hj
    cases hj
    obtain ⟨_, w4, h4, g9⟩ := nsm_ok g8
    obtain ⟨rfl, _⟩ := reject_ok h4
    obtain ⟨_, w5, h5, g10⟩ := nsm_ok g9
    obtain ⟨rfl, _⟩ := reject_ok h5
    obtain ⟨_, w6, h6, g11⟩ := nsm_ok g10
    have hk := hput w5 "resume" (if a.proceed then .flag true else .text "overwrite".toList) (by rw [h2i]; exact hne)
    rw [h6] at hk
    exact keeps_ok (keeps_bind (keeps_put _ _ _) fun _ => keeps_bind (keeps_get _) fun _ => keeps_bind (keeps_make _ _ _ _) fun _ => keeps_bind (keeps_get _) fun _ => keeps_sample _ _) g11 hk
  | nautilus =>
    refine ⟨?_, fun hm => by cases hm⟩
    change a.sampler_kwargs = some i at hi
    obtain ⟨_, w1, h1, g12⟩ := nsm_ok h
    obtain ⟨_, rfl⟩ := raiseIf_ok h1
    obtain ⟨j, w2, h2, g13⟩ := nsm_ok g12
    obtain ⟨hj, rfl⟩ := orEmpty_ok_nonempty (by rw [hi]; exact hne) h2
    rw [hi] at hj
    cases hj
    obtain ⟨j, w3, h3, g14⟩ := nsm_ok g13
    have h3i := happ h3 hne
    obtain ⟨x, hx⟩ : ∃ k, Dict.has (w3.at i) k = true := by
      rw [h3i]
      rcases hd : w2.at i with _ | ⟨⟨k, v⟩, d⟩
      · exact absurd hd hne
      · exact ⟨k, by simp [Dict.has, Dict.get?]⟩
    obtain ⟨_, w4, h4, g15⟩ := nsm_ok g14
    replace hx := keeps_ok (keeps_setDefault _ _ _) h4 hx
    obtain ⟨_, w5, h5, g16⟩ := nsm_ok g15
    obtain ⟨rfl, _⟩ := reject_ok h5
    obtain ⟨_, w6, h6, g17⟩ := nsm_ok g16
    replace hx := keeps_ok (keeps_putPath _ _ _ _) h6 hx
    obtain ⟨_, w7, h7, g18⟩ := nsm_ok g17
    obtain ⟨rfl, _⟩ := reject_ok h7
    obtain ⟨_, w8, h8, g19⟩ := nsm_ok g18
    have hk := hput w7 "resume" (.flag a.proceed) (has_at_nonempty hx)
    rw [h8] at hk
    exact keeps_ok (keeps_bind (keeps_get _) fun _ => keeps_bind (keeps_make _ _ _ _) fun _ => keeps_bind (keeps_get _) fun _ => keeps_sample _ _) g19 hk
  | multinest =>
    have hacc := accepted_of_ok h
    change a.run_kwargs = some i at hi
    obtain ⟨b, w1, h1, g20⟩ := nsm_ok h
    have hw : w1 = w := by
      unfold nsNonEmpty at h1
      split at h1 <;> cases h1 <;> rfl
    subst hw
    obtain ⟨_, w2, h2, g21⟩ := nsm_ok g20
    obtain ⟨_, rfl⟩ := raiseIf_ok h2
    obtain ⟨_, w3, h3, g22⟩ := nsm_ok g21
    obtain ⟨_, rfl⟩ := raiseIf_ok h3
    obtain ⟨j, w4, h4, g23⟩ := nsm_ok g22
    obtain ⟨hj, rfl⟩ := orEmpty_ok_nonempty (by rw [hi]; exact hne) h4
    rw [hi] at hj
    cases hj
    obtain ⟨_, w5, h5, g24⟩ := nsm_ok g23
    obtain ⟨rfl, _⟩ := reject_ok h5
    obtain ⟨_, w6, h6, g25⟩ := nsm_ok g24
    have hx : Dict.has (w6.at i) "outputfiles_basename".toList = true := by
      have := hput w5 "outputfiles_basename" (.text (joinPath (a.outdir.getD "tmpdir".toList) "out")) hne
      rw [h6] at this
      exact this
    obtain ⟨_, w7, h7, g26⟩ := nsm_ok g25
    obtain ⟨rfl, _⟩ := reject_ok h7
    obtain ⟨_, w8, h8, g27⟩ := nsm_ok g26
    have hk := hput w7 "resume" (.flag a.proceed) (has_at_nonempty hx)
    rw [h8] at hk
    refine ⟨keeps_ok (keeps_bind (keeps_makeDirs _ _) fun _ => keeps_bind (keeps_get _) fun _ => keeps_bind (keeps_sample _ _) fun _ => keeps_bind (keeps_multinestClean _) fun _ => keeps_pure _) g27 hk, fun _ => ?_⟩
    -- the other dictionary
    have hsk := hacc.multinest rfl
    have hheap : w0.heap = w8.heap := by
      obtain ⟨_, w9, h9, g28⟩ := nsm_ok g27
      obtain ⟨_, w10, h10, g29⟩ := nsm_ok g28
      obtain ⟨_, w11, h11, g30⟩ := nsm_ok g29
      obtain ⟨_, w12, h12, g31⟩ := nsm_ok g30
      cases g31
      have e9 : w9.heap = w8.heap := by
        unfold nsMakeDirs at h9
        split at h9 <;> cases h9
        rfl
      have e10 : w10 = w9 := by cases h10; rfl
      have e11 : w11.heap = w10.heap := by
        unfold nsSample at h11
        obtain ⟨_, rfl⟩ := Prod.mk.inj h11
        rfl
      have e12 : w0.heap = w11.heap := by
        rcases hd : a.outdir with _ | d
        · rw [hd] at h12
          change nsRemoveTree _ _ = _ at h12
          unfold nsRemoveTree at h12
          split_ifs at h12
          · cases h12; rfl
          · cases h12
        · rw [hd] at h12
          cases h12; rfl
      rw [e12, e11, e10, e9]
    rcases hq : a.sampler_kwargs with _ | j
    · rfl
    · rw [hq] at hsk
      have hji : i ≠ j := by
        rintro rfl
        exact hne hsk
      show w0.heap[j]?.getD [] = []
      rw [hheap]
      have e7 := congrArg Prod.snd h6
      have e8 := congrArg Prod.snd h8
      rw [put_eq] at e7 e8
      change setAt _ _ _ = w7 at e7
      change setAt _ _ _ = w8 at e8
      have : w8.at j = w5.at j := by
        rw [← e8, setAt_at_ne hji, ← e7, setAt_at_ne hji]
      exact this.trans hsk

theorem multinest_location (a : NsArgs) (w : NsWorld) : nsLocation (expectedCall .multinest a w).sampler (expectedCall .multinest a w).init (expectedCall .multinest a w).run = some (joinPath (a.outdir.getD "tmpdir".toList) "out") := by
  show pathValue (Dict.set (Dict.set _ _ _) _ _) _ = _
  unfold pathValue
  rw [Dict.get?_set_ne _ _ (by decide), Dict.get?_set_self]

theorem makeDirs_tmp {w : NsWorld} (h : Dict.get? w.fs "tmpdir".toList = none) : nsMakeDirs "tmpdir".toList true w = (.ok (), { w with fs := Dict.set w.fs "tmpdir".toList .dir }) := by
  unfold nsMakeDirs
  have : makeDirs "tmpdir".toList.length w.fs "tmpdir".toList true = .ok (Dict.set w.fs "tmpdir".toList .dir) := by
    show makeDirs (5 + 1) _ _ _ = _
    unfold makeDirs
    rw [if_neg (by rintro ⟨h1, _⟩; exact h1 (by decide))]
    have hd : fsIsDir w.fs "tmpdir".toList = false := by unfold fsIsDir; rw [h]
    have he : fsExists w.fs "tmpdir".toList = false := by unfold fsExists Dict.has; rw [h]; rfl
    rw [hd]
    unfold mkDir
    rw [if_neg (by decide), he]
    rw [if_pos (show dirName "tmpdir".toList = [] ∨ _ from .inl (by decide))]
    rfl
  rw [this]

theorem core_clean {pk : Packages} {a : NsArgs} (ho : a.outdir = none) {c : NsCall} {there : Bool} {w wc : NsWorld} {r : List (List Fl) × NsEvidence} (h : coreOf pk a .multinest c there w = (.ok r, wc)) :
    ∃ w2 : NsWorld, wc.fs = w2.fs.filter fun e => !(e.1 = "tmpdir".toList) && !(("tmpdir".toList ++ ['/']).isPrefixOf e.1) := by
  obtain ⟨_, w2, h1, h⟩ := nsm_ok h
  obtain ⟨res, w3, h2, h⟩ := nsm_ok h
  obtain ⟨_, w4, h3, h⟩ := nsm_ok h
  cases h
  rw [ho] at h3
  change nsRemoveTree _ _ = _ at h3
  unfold nsRemoveTree at h3
  split_ifs at h3
  · cases h3
    exact ⟨w3, rfl⟩
  · cases h3

theorem expected_sampler (s : NsSampler) (a : NsArgs) (w : NsWorld) (hpr : a.proceed = false) : (expectedCall s a w).sampler = s ∧ (expectedCall s a w).restore = none := by
  unfold expectedCall
  rw [hpr]
  cases s <;> exact ⟨rfl, rfl⟩

theorem make_ok {pk : Packages} {s : NsSampler} {r : Option Text} {init : Kwargs} {w : NsWorld} (h : (pk.make s r init w.fs).1 = .ok ()) : ∃ fs, nsMake pk s r init w = (.ok (), { w with fs := fs }) := by
  unfold nsMake
  rw [h]
  exact ⟨_, rfl⟩

theorem write_exists {p q : Text} {n : FsNode} {w w' : NsWorld} {u : Unit} (h : nsWrite p n w = (.ok u, w')) (hq : fsExists w.fs q = true ∨ q = p) : fsExists w'.fs q = true := by
  unfold nsWrite at h
  split_ifs at h
  · cases h
  · cases h
    rcases hq with hq | rfl
    · exact fsExists_set _ _ _ _ hq
    · exact fsExists_set_self _ _ _
  · cases h

theorem write_get {p q : Text} {n : FsNode} {w w' : NsWorld} {u : Unit} (h : nsWrite p n w = (.ok u, w')) (hq : p ≠ q) : Dict.get? w'.fs q = Dict.get? w.fs q := by
  unfold nsWrite at h
  split_ifs at h
  · cases h
  · cases h
    exact Dict.get?_set_ne _ _ hq
  · cases h

theorem isDir_of_get {fs fs' : FS} {p : Text} (h : Dict.get? fs' p = Dict.get? fs p) : fsIsDir fs' p = fsIsDir fs p := by
  unfold fsIsDir
  rw [h]

theorem exists_of_get {fs fs' : FS} {p : Text} (h : Dict.get? fs' p = Dict.get? fs p) : fsExists fs' p = fsExists fs p := by
  unfold fsExists Dict.has
  rw [h]

theorem then_pure {α β : Type} (m : NsM α) (r : β) (w : NsWorld) : ((m >>= fun _ => pure r) w).2 = (m w).2 := by
  rw [nsm_bind]
  rcases m w with ⟨x, w'⟩
  rcases x with e | x
  · rfl
  · rfl

theorem sample_calls (pk : Packages) (c : NsCall) (w : NsWorld) (f : List (List Fl) × NsEvidence → NsM (List (List Fl) × NsEvidence)) (hf : ∀ r w, (f r w).2.calls = w.calls) :
    ((nsSample pk c >>= f) w).2.calls = c :: w.calls := by
  rw [nsm_bind]
  unfold nsSample
  rcases (pk.sample c w.fs).1 with e | r
  · rfl
  · exact hf r _

theorem core_calls_again {pk : Packages} (hpol : pk.Polite) {a : NsArgs} (ho : a.overwrite = true) (hpr : a.proceed = false) {s : NsSampler} {w wc w1 : NsWorld}
    (hmk : ∀ fs, (pk.make s none (expectedCall s a w).init fs).1 = .ok ()) {r : List (List Fl) × NsEvidence} (hcore : coreOf pk a s (expectedCall s a w) (dynThere a w) w = (.ok r, wc)) {H H' : List Kwargs} {t : NsTable} {ev : NsEvidence}
    (h3 : saveResults a t ev { wc with heap := H } = (.ok (), w1)) : (withHeap (coreOf pk a s (expectedCall s a w) (dynThere a w1) w1) H').2.calls = expectedCall s a w :: w1.calls := by
  show (coreOf pk a s (expectedCall s a w) (dynThere a w1) w1).2.calls = _
  obtain ⟨hsam, hres⟩ := expected_sampler s a w hpr
  obtain ⟨fs1, hm1⟩ := make_ok (w := w1) (hmk w1.fs)
  have hsave_exists : ∀ q, fsExists wc.fs q = true → fsExists w1.fs q = true := by
    intro q hq
    unfold saveResults at h3
    rcases hd : a.outdir with _ | d
    · rw [hd] at h3
      cases h3
      exact hq
    · rw [hd] at h3
      exact write_exists h3 (.inl hq)
  have hdyn : (nsMake pk (expectedCall s a w).sampler (expectedCall s a w).restore (expectedCall s a w).init >>= fun _ => dynestyTail pk a (expectedCall s a w) (dynThere a w)) w = (.ok r, wc) →
      ((nsMake pk (expectedCall s a w).sampler (expectedCall s a w).restore (expectedCall s a w).init >>= fun _ => dynestyTail pk a (expectedCall s a w) (dynThere a w1)) w1).2.calls = expectedCall s a w :: w1.calls := by
    intro hcore
    rw [hsam, hres, nsm_of_ok hm1]
    have hdir : dynestyDir (checkpoint a) (dynThere a w1) { w1 with fs := fs1 } = (.ok (), { w1 with fs := fs1 }) := by
      rcases hck : checkpoint a with _ | p
      · rfl
      · have hth : dynThere a w1 = true := by
          unfold dynThere
          rw [hck]
          refine hsave_exists p ?_
          obtain ⟨_, w2, _, g1⟩ := nsm_ok hcore
          obtain ⟨_, w3, _, g2⟩ := nsm_ok g1
          obtain ⟨_, w4, _, g3⟩ := nsm_ok g2
          obtain ⟨_, w5, e5, g4⟩ := nsm_ok g3
          cases g4
          rw [hck] at e5
          exact write_exists e5 (.inr rfl)
        rw [hth]
        rfl
    show ((dynestyDir (checkpoint a) (dynThere a w1) >>= _) _).2.calls = _
    rw [nsm_of_ok hdir]
    refine sample_calls pk _ _ _ fun r w => ?_
    rcases checkpoint a with _ | p
    · rfl
    · refine (congrArg NsWorld.calls (then_pure (nsWrite p (.raw 0)) r w)).trans ?_
      unfold nsWrite
      split_ifs <;> rfl
  cases s with
  | ultranest =>
    show ((nsMake pk _ _ _ >>= _) w1).2.calls = _
    rw [hsam, hres, nsm_of_ok hm1]
    rfl
  | nautilus =>
    show ((nsMake pk _ _ _ >>= _) w1).2.calls = _
    rw [hsam, hres, nsm_of_ok hm1]
    rfl
  | dynestyStatic => exact hdyn hcore
  | dynestyDynamic => exact hdyn hcore
  | multinest =>
    have hmd : ∃ fs, nsMakeDirs (a.outdir.getD "tmpdir".toList) (a.outdir.isNone || (a.overwrite || a.proceed) || a.proceed) w1 = (.ok (), { w1 with fs := fs }) := by
      rw [ho]
      rcases hd : a.outdir with _ | d
      · obtain ⟨w2, hx⟩ := core_clean hd hcore
        refine ⟨_, makeDirs_tmp ?_⟩
        unfold saveResults at h3
        rw [hd] at h3
        cases h3
        show Dict.get? wc.fs _ = none
        rw [hx, get?_filter_key w2.fs (fun q => !(q = "tmpdir".toList) && !(("tmpdir".toList ++ ['/']).isPrefixOf q)), if_neg (by simp)]
      · obtain ⟨_, w2, e2, g1⟩ := nsm_ok hcore
        obtain ⟨_, w3, e3, g2⟩ := nsm_ok g1
        obtain ⟨_, w4, e4, g3⟩ := nsm_ok g2
        cases g3
        rw [hd] at e2 e4
        cases e4
        unfold nsMakeDirs at e2
        simp only [Option.getD_some] at e2
        rcases hmk : makeDirs d.length w.fs d (Option.isNone (some d) || (a.overwrite || a.proceed) || a.proceed) with e | fs2
        · rw [hmk] at e2; cases e2
        rw [hmk] at e2
        cases e2
        have hdir := makeDirs_isDir _ _ _ _ _ hmk
        have hpar : dirName d = [] ∨ fsExists fs2 (dirName d) = true := by
          rcases d with _ | ⟨x, d⟩
          · exact .inl (by decide)
          · exact makeDirs_parent _ _ _ _ _ hmk
        have hloc := multinest_location a w
        rw [hd] at hloc
        simp only [Option.getD_some] at hloc
        have hlen := joinPath_length d "out"
        have hlen' := dirName_length d
        have hkeep : ∀ q : Text, q.length ≤ d.length → Dict.get? wc.fs q = Dict.get? fs2 q := by
          intro q hq
          unfold nsSample at e3
          obtain ⟨_, rfl⟩ := Prod.mk.inj e3
          refine hpol.sample _ _ _ ?_
          intro loc hl
          rw [hloc] at hl
          cases hl
          intro hpre
          have := hpre.length_le
          have h3 : "out".toList.length = 3 := by decide
          omega
        unfold saveResults at h3
        rw [hd] at h3
        change nsWrite _ _ _ = _ at h3
        refine ⟨w1.fs, ?_⟩
        unfold nsMakeDirs
        simp only [Option.getD_some, Bool.true_or, Bool.or_true]
        rw [makeDirs_again]
        · rw [isDir_of_get (write_get h3 ?_)]
          · show fsIsDir wc.fs d = true
            rw [isDir_of_get (hkeep d (Nat.le_refl _))]
            exact hdir
          · intro he
            have h4 := joinPath_length d "results.hdf5"
            have h5 : "results.hdf5".toList.length = 12 := by decide
            rw [he] at h4
            omega
        · rcases hpar with hpar | hpar
          · exact .inl hpar
          · refine .inr (write_exists h3 (.inl ?_))
            show fsExists wc.fs _ = true
            rw [exists_of_get (hkeep _ hlen')]
            exact hpar
    obtain ⟨fs, hmd⟩ := hmd
    show ((nsMakeDirs _ _ >>= _) w1).2.calls = _
    rw [nsm_of_ok hmd]
    refine sample_calls pk _ _ _ fun r w => ?_
    rcases a.outdir with _ | d
    · refine (congrArg NsWorld.calls (then_pure (nsRemoveTree "tmpdir".toList) r w)).trans ?_
      unfold nsRemoveTree
      split_ifs <;> rfl
    · rfl

theorem core_files {pk : Packages} (hpol : pk.Polite) {a : NsArgs} (ho : a.outdir = none) {s : NsSampler} {w : NsWorld} {H : List Kwargs} (hres : ∀ k ∈ reserved s, Dict.has (content w (a.target s)) k = false)
    (hm : s = .multinest → (∀ q, Below "tmpdir".toList q → Dict.get? w.fs q = none) ∧ ∃ r, (coreOf pk a s (expectedCall s a w) (dynThere a w) w).1 = .ok r) (p : Text) :
    Dict.get? (withHeap (coreOf pk a s (expectedCall s a w) (dynThere a w) w) H).2.fs p = Dict.get? w.fs p := by
  show Dict.get? (coreOf pk a s (expectedCall s a w) (dynThere a w) w).2.fs p = _
  have hck : checkpoint a = none := by unfold checkpoint; rw [ho]; rfl
  have two : ∀ c : NsCall, nsLocation c.sampler c.init [] = none → nsLocation c.sampler c.init c.run = none →
      Dict.get? (((nsMake pk c.sampler c.restore c.init >>= fun _ => nsSample pk c) : NsM _) w).2.fs p = Dict.get? w.fs p := by
    intro c h1 h2
    have e1 := hpol.make c.sampler c.restore c.init w.fs p (fun loc hl => by rw [h1] at hl; cases hl)
    rw [nsm_bind]
    unfold nsMake
    rcases (pk.make c.sampler c.restore c.init w.fs).1 with e | u
    · exact e1
    · exact (hpol.sample c _ p (fun loc hl => by rw [h2] at hl; cases hl)).trans e1
  have dyn : s = .dynestyStatic ∨ s = .dynestyDynamic → Dict.get? (coreOf pk a s (expectedCall s a w) (dynThere a w) w).2.fs p = Dict.get? w.fs p := by
    intro hs
    have heq : coreOf pk a s (expectedCall s a w) (dynThere a w) w = ((nsMake pk (expectedCall s a w).sampler (expectedCall s a w).restore (expectedCall s a w).init >>= fun _ => nsSample pk (expectedCall s a w)) : NsM _) w := by
      have : coreOf pk a s (expectedCall s a w) (dynThere a w) = (nsMake pk (expectedCall s a w).sampler (expectedCall s a w).restore (expectedCall s a w).init >>= fun _ => dynestyTail pk a (expectedCall s a w) (dynThere a w)) := by
        rcases hs with rfl | rfl <;> rfl
      rw [this, nsm_bind, nsm_bind]
      rcases nsMake pk (expectedCall s a w).sampler (expectedCall s a w).restore (expectedCall s a w).init w with ⟨r, w'⟩
      rcases r with e | u
      · rfl
      · show dynestyTail pk a (expectedCall s a w) (dynThere a w) w' = nsSample pk _ w'
        unfold dynestyTail
        rw [hck]
        rw [nsm_of_ok (show dynestyDir none (dynThere a w) w' = (.ok (), w') from rfl), nsm_bind]
        rcases nsSample pk (expectedCall s a w) w' with ⟨r, w''⟩
        rcases r with e | r
        · rfl
        · rfl
    have hrun : (expectedCall s a w).run = Dict.set (content w a.run_kwargs) "resume".toList (.flag a.proceed) := by
      have hth : dynThere a w = false := by unfold dynThere; rw [hck]; rfl
      rcases hs with rfl | rfl <;> unfold expectedCall <;> simp only [hck, withPath, Option.any_none, Bool.and_false, Option.isSome_none, Bool.false_eq_true, if_false]
    have hsam : (expectedCall s a w).sampler = s := by
      rcases hs with rfl | rfl <;> unfold expectedCall <;> simp only <;> split_ifs <;> rfl
    have hloc : ∀ i r, nsLocation s i r = pathValue r "checkpoint_file" := by rcases hs with rfl | rfl <;> exact fun _ _ => rfl
    have htar : a.target s = a.run_kwargs := by rcases hs with rfl | rfl <;> rfl
    have hin : "checkpoint_file".toList ∈ reserved s := by rcases hs with rfl | rfl <;> simp [reserved]
    rw [heq]
    refine two _ ?_ ?_
    · rw [hsam, hloc]
      rfl
    · rw [hsam, hloc, hrun]
      refine pathValue_absent ?_
      rw [kwargs_has_set_ne (by decide), ← htar]
      exact hres _ hin
  cases s with
  | ultranest =>
    have : ∀ r, nsLocation .ultranest (expectedCall .ultranest a w).init r = none := by
      intro r
      show pathValue (Dict.set (Dict.set _ _ _) _ (match a.outdir with | none => .none | some d => .text d)) _ = none
      unfold pathValue
      rw [Dict.get?_set_self, ho]
    exact two _ (this _) (this _)
  | nautilus =>
    have : ∀ r, nsLocation .nautilus (expectedCall .nautilus a w).init r = none := by
      intro r
      show pathValue (Dict.set (withPath _ _ (a.outdir.map _)) _ _) _ = none
      refine pathValue_absent ?_
      rw [kwargs_has_set_ne (by decide), ho]
      exact hres _ (by simp [reserved])
    exact two _ (this _) (this _)
  | dynestyStatic => exact dyn (.inl rfl)
  | dynestyDynamic => exact dyn (.inr rfl)
  | multinest =>
    obtain ⟨hnone, r, hr⟩ := hm rfl
    rcases hcore : coreOf pk a .multinest (expectedCall .multinest a w) (dynThere a w) w with ⟨x, wc⟩
    rw [hcore] at hr
    change x = _ at hr
    subst hr
    show Dict.get? wc.fs p = _
    obtain ⟨_, w2, e2, g1⟩ := nsm_ok hcore
    obtain ⟨_, w3, e3, g2⟩ := nsm_ok g1
    obtain ⟨_, w4, e4, g3⟩ := nsm_ok g2
    cases g3
    rw [ho] at e2 e4
    rw [show nsMakeDirs (Option.getD none "tmpdir".toList) (Option.isNone (none : Option Text) || (a.overwrite || a.proceed) || a.proceed) w = (.ok (), { w with fs := Dict.set w.fs "tmpdir".toList .dir }) from makeDirs_tmp (hnone _ (.inl rfl))] at e2
    cases e2
    change nsRemoveTree _ _ = _ at e4
    unfold nsRemoveTree at e4
    split_ifs at e4
    · cases e4
      rw [get?_filter_key w3.fs (fun q => !(q = "tmpdir".toList) && !(("tmpdir".toList ++ ['/']).isPrefixOf q))]
      by_cases hb : Below "tmpdir".toList p
      · rw [hnone p hb, if_neg]
        rcases hb with rfl | hb
        · simp
        · rw [List.isPrefixOf_iff_prefix.mpr hb]
          simp
      · have hb1 : p ≠ "tmpdir".toList := fun h => hb (.inl h)
        have hb2 : ("tmpdir".toList ++ ['/']).isPrefixOf p = false := by
          by_contra hc
          exact hb (.inr (List.isPrefixOf_iff_prefix.mp (by simpa using hc)))
        rw [if_pos (by rw [hb2]; simpa using hb1)]
        unfold nsSample at e3
        obtain ⟨_, rfl⟩ := Prod.mk.inj e3
        show Dict.get? (pk.sample _ (Dict.set w.fs "tmpdir".toList .dir)).2 p = _
        rw [hpol.sample]
        · exact Dict.get?_set_ne _ _ (Ne.symm hb1)
        · intro loc hl
          rw [multinest_location, ho] at hl
          cases hl
          intro hpre
          refine hb (.inr (List.IsPrefix.trans ?_ hpre))
          decide
    · cases e4

end Radvel

namespace Radvel

theorem dropWhile_append_stop {α : Type} (q : α → Bool) (l : List α) (x : α) (t : List α) (hl : ∀ y ∈ l, q y = true) (hx : q x = false) : (l ++ x :: t).dropWhile q = x :: t := by
  induction l with
  | nil => simp [List.dropWhile_cons, hx]
  | cons y l ih =>
    rw [List.cons_append, List.dropWhile_cons, if_pos (hl y (by simp))]
    exact ih fun z hz => hl z (by simp [hz])

theorem dirName_join (d : Text) (b : String) (hd : d ≠ []) (hl : d.getLast? ≠ some '/') (hb : ∀ c ∈ b.toList, c ≠ '/') : dirName (joinPath d b) = d := by
  have hj : joinPath d b = d ++ '/' :: b.toList := by
    unfold joinPath
    rw [if_neg (by rintro (h | h) <;> contradiction)]
  rw [hj]
  unfold dirName
  have h1 : ((d ++ '/' :: b.toList).reverse.dropWhile (· ≠ '/')).reverse = d ++ ['/'] := by
    rw [show (d ++ '/' :: b.toList).reverse = b.toList.reverse ++ '/' :: d.reverse by simp]
    rw [dropWhile_append_stop]
    · simp
    · intro y hy
      simpa using hb y (by simpa using hy)
    · simp
  simp only [h1]
  obtain ⟨d0, x, rfl⟩ : ∃ d0 x, d = d0 ++ [x] := ⟨d.dropLast, d.getLast hd, (List.dropLast_append_getLast hd).symm⟩
  have hx : x ≠ '/' := by
    intro he
    exact hl (by rw [he]; simp)
  rw [if_neg (by simp [hx])]
  rw [show (d0 ++ [x] ++ ['/']).reverse = ['/'] ++ x :: d0.reverse by simp]
  rw [dropWhile_append_stop]
  · simp
  · simp
  · simpa using hx

end Radvel
