import Verif.Lemmas.NestedRun

/-! C76, C77, C78, C106, C107: nested sampling. -/

namespace Radvel

/-! ### Non-trivial instance -/

/-- Packages that return one sample and write one file at the location they are given. -/
def somePackages : Packages where
  installed := fun _ => true
  make := fun _ _ _ fs => (.ok (), fs)
  sample := fun c fs => (.ok ([[Fl.fin 1, Fl.fin 2]], { lnZ := Fl.fin 0, lnZerr := Fl.fin 1 }),
    match nsLocation c.sampler c.init c.run with
    | none => fs
    | some loc => Dict.set fs (joinPath loc "points") (.raw 7))

/-- A posterior with two free parameters. -/
noncomputable def somePost : NsPost where
  proper := .ok ()
  names := ["k1".toList, "jit".toList]
  logprob := fun _ => .ok (Fl.fin 5)

/-- A caller with an output directory that exists and two dictionaries. -/
def someNsWorld : NsWorld where
  heap := [[("nlive".toList, .other 3)], []]
  fs := [("out".toList, .dir), ("out/notes".toList, .raw 1)]
  calls := []

/-- Arguments. -/
def someArgs (outdir : Option Text) (sampler : String) (sk rk : Option Nat) : NsArgs where
  outdir := outdir
  overwrite := true
  proceed := false
  sampler := sampler.toList
  sampler_kwargs := sk
  run_kwargs := rk

/-! ### C78 -/

/-- C78: with a results file and neither `overwrite` nor `proceed`, `run` raises, nothing is sampled and no file or dictionary changes; the error is `FileExistsError` for proper priors. -/
theorem C78_existing (pk : Packages) (post : NsPost) (a : NsArgs) (w : NsWorld) (d : Text) (hd : a.outdir = some d) (hr : fsExists w.fs (joinPath d "results.hdf5") = true)
    (ho : a.overwrite = false) (hp : a.proceed = false) :
    ∃ e, nsRun pk post a w = (.error e, w) ∧ (post.proper = .ok () → e = .fileExistsError) := by
  rcases hpr : post.proper with e | u
  · exact ⟨e, nsm_of_error (by unfold nsLift; rw [hpr]), fun h => by cases h⟩
  · refine ⟨.fileExistsError, ?_, fun _ => rfl⟩
    unfold nsRun
    rw [nsm_of_ok (show nsLift post.proper w = (.ok (), w) by unfold nsLift; rw [hpr])]
    refine nsm_of_error ?_
    unfold checkResults
    rw [hd]
    simp only [hr, ho, hp]
    rfl

/-- A case in which `C78_existing` applies. -/
example : fsExists [("out".toList, FsNode.dir), ("out/results.hdf5".toList, .raw 0)] (joinPath "out".toList "results.hdf5") = true := by decide

/-- C78: a keyword that radvel sets itself is refused: `run` raises, nothing is sampled and no file changes; if nothing else is wrong the error is `ValueError`. -/
theorem C78_reserved (pk : Packages) (post : NsPost) (a : NsArgs) (s : NsSampler) (hs : SamplerName a.sampler s) (w : NsWorld) (k : Text) (hk : k ∈ reserved s) (hh : Dict.has (content w (a.target s)) k = true) :
    ∃ e w', nsRun pk post a w = (.error e, w') ∧ w'.fs = w.fs ∧ w'.calls = w.calls ∧
      (post.proper = .ok () → (∀ d, a.outdir = some d → fsExists w.fs (joinPath d "results.hdf5") = true → a.overwrite = true ∨ a.proceed = true) → pk.installed s = true →
        (s = .multinest → content w a.sampler_kwargs = []) → e = .valueError) := by
  rcases ht : a.target s with _ | i
  · rw [ht] at hh
    simp [content, Dict.has, Dict.get?] at hh
  rw [ht] at hh
  have : Doomed (fun e => post.proper = .ok () → (∀ d, a.outdir = some d → fsExists w.fs (joinPath d "results.hdf5") = true → a.overwrite = true ∨ a.proceed = true) → pk.installed s = true →
        (s = .multinest → content w a.sampler_kwargs = []) → e = .valueError) (nsRun pk post a) w := by
    unfold nsRun
    refine doomed_bind (quiet_lift _) (fun e w' h => ?_) fun u w1 h1 => ?_
    · intro hp
      unfold nsLift at h
      rw [hp] at h
      cases h
    unfold nsLift at h1
    obtain ⟨_, rfl⟩ := Prod.mk.inj h1
    refine doomed_bind (quiet_check _) (fun e w' h => ?_) fun u w1 h1 => ?_
    · intro _ hc
      rw [check_ok hc] at h
      cases h
    have hw : w1 = w := by
      unfold checkResults at h1
      split at h1
      · cases h1; rfl
      · split at h1
        · cases h1
        · cases h1; rfl
    subst hw
    rw [startSampler_of hs]
    refine doomed_first ?_
    obtain ⟨e, w', h1, h2, h3⟩ := doomed_start pk a s w1 ht hk hh
    exact ⟨e, w', h1, fun _ _ => h2, h3⟩
  obtain ⟨e, w', h1, h2, h3, h4⟩ := this
  exact ⟨e, w', h1, h3, h4, h2⟩

/-- A case in which `C78_reserved` applies: `checkpoint_file` for dynesty. -/
example : SamplerName (someArgs none "Dynesty-Static" none (some 0)).sampler .dynestyStatic ∧ "checkpoint_file".toList ∈ reserved .dynestyStatic ∧
    Dict.has (content { someNsWorld with heap := [[("checkpoint_file".toList, .text "x".toList)]] } ((someArgs none "Dynesty-Static" none (some 0)).target .dynestyStatic)) "checkpoint_file".toList = true := by
  refine ⟨?_, by decide, by decide⟩
  unfold SamplerName
  decide

/-- C78: keywords for the sampler object are refused for multinest, with `TypeError` and without any change. -/
theorem C78_multinest (pk : Packages) (post : NsPost) (a : NsArgs) (hs : SamplerName a.sampler .multinest) (w : NsWorld) (hne : content w a.sampler_kwargs ≠ []) (hp : post.proper = .ok ())
    (hc : ∀ d, a.outdir = some d → fsExists w.fs (joinPath d "results.hdf5") = true → a.overwrite = true ∨ a.proceed = true) : nsRun pk post a w = (.error .typeError, w) := by
  rw [nsRun_start hs hp (check_ok hc)]
  exact nsm_of_error (start_typeError pk a w hne)

/-- A case in which `C78_multinest` applies. -/
example : SamplerName (someArgs none "pymultinest" (some 0) none).sampler .multinest ∧ content someNsWorld (someArgs none "pymultinest" (some 0) none).sampler_kwargs ≠ [] := by
  refine ⟨.inr ?_, by decide⟩
  decide

/-- C78: any other name of a sampler is refused with `ValueError` and without any change. -/
theorem C78_unknown (pk : Packages) (post : NsPost) (a : NsArgs) (hs : ∀ s, ¬ SamplerName a.sampler s) (w : NsWorld) (hp : post.proper = .ok ())
    (hc : ∀ d, a.outdir = some d → fsExists w.fs (joinPath d "results.hdf5") = true → a.overwrite = true ∨ a.proceed = true) : nsRun pk post a w = (.error .valueError, w) := by
  unfold nsRun
  rw [nsm_of_ok (show nsLift post.proper w = (.ok (), w) by unfold nsLift; rw [hp]), nsm_of_ok (check_ok hc), startSampler_unknown hs]
  rfl

/-- A case in which `C78_unknown` applies. -/
example : ∀ s, ¬ SamplerName (someArgs none "emcee" none none).sampler s := by
  intro s
  cases s <;> unfold SamplerName <;> decide

/-! ### C107 -/

/-- C107: a successful call samples exactly once, with the caller's keywords and radvel's own. -/
theorem C107 (pk : Packages) (post : NsPost) (a : NsArgs) (s : NsSampler) (hs : SamplerName a.sampler s) (w w1 : NsWorld) (hv : a.Valid w) (hap : a.Apart w) (t : NsTable) (ev : NsEvidence)
    (h : nsRun pk post a w = (.ok (t, ev), w1)) : w1.calls = expectedCall s a w :: w.calls := by
  obtain ⟨samples, w0, hp, hc, h1, h2, h3⟩ := nsRun_ok hs h
  have hacc := accepted_of_ok h1
  obtain ⟨H, h4, _⟩ := start_eq pk a s w hacc.installed hv hap hacc.multinest hacc.reserved
  rw [h4] at h1
  have h5 := (save_calls a t ev w0).1
  rw [h3] at h5
  rcases hcore : coreOf pk a s (expectedCall s a w) (dynThere a w) w with ⟨r, wc⟩
  rw [hcore] at h1
  obtain ⟨h6, rfl⟩ := Prod.mk.inj h1
  change r = _ at h6
  subst h6
  exact h5.trans (core_calls_ok hcore).1

/-! ### C106 -/

/-- C106: the table has one row per sample that the package returned, in order: the sample followed by its log posterior; the columns are the names of the free parameters and `lnprobability`. -/
theorem C106_table (pk : Packages) (post : NsPost) (a : NsArgs) (s : NsSampler) (hs : SamplerName a.sampler s) (w w1 : NsWorld) (hv : a.Valid w) (hap : a.Apart w) (t : NsTable) (ev : NsEvidence)
    (h : nsRun pk post a w = (.ok (t, ev), w1)) :
    t.columns = post.names ++ ["lnprobability".toList] ∧
      ∃ samples fs, (pk.sample (expectedCall s a w) fs).1 = .ok (samples, ev) ∧
        List.Forall₂ (fun x row => x.length = post.names.length ∧ ∃ lp, post.logprob x = .ok lp ∧ row = x ++ [lp]) samples t.rows := by
  obtain ⟨samples, w0, hp, hc, h1, h2, h3⟩ := nsRun_ok hs h
  have hacc := accepted_of_ok h1
  obtain ⟨H, h4, _⟩ := start_eq pk a s w hacc.installed hv hap hacc.multinest hacc.reserved
  rw [h4] at h1
  rcases hcore : coreOf pk a s (expectedCall s a w) (dynThere a w) w with ⟨r, wc⟩
  rw [hcore] at h1
  have h6 := (Prod.mk.inj h1).1
  change r = _ at h6
  subst h6
  obtain ⟨fs, hfs⟩ := (core_calls_ok hcore).2
  unfold nsTable at h2
  split_ifs at h2 with hfit
  rcases hm : samples.mapM (nsRow post) with e | rows
  · rw [hm] at h2; cases h2
  rw [hm] at h2
  have h2' := Except.ok.inj h2
  subst h2'
  refine ⟨rfl, samples, fs, hfs, ?_⟩
  show List.Forall₂ _ samples rows
  clear h4 h1 hcore hfs h2 h3 h hs
  unfold rowsFit at hfit
  revert rows
  induction samples with
  | nil =>
    intro rows hm
    cases hm
    exact .nil
  | cons x xs ih =>
    intro rows hm
    rw [List.all_cons, Bool.and_eq_true] at hfit
    rw [List.mapM_cons] at hm
    rcases hx : nsRow post x with e | row
    · rw [hx] at hm; cases hm
    rw [hx] at hm
    change (List.mapM (nsRow post) xs >>= fun rs => pure (row :: rs)) = _ at hm
    rcases hxs : List.mapM (nsRow post) xs with e | rs
    · rw [hxs] at hm; cases hm
    rw [hxs] at hm
    have := Except.ok.inj hm
    subst this
    refine .cons ⟨by simpa using hfit.1, ?_⟩ (ih hfit.2 rs hxs)
    unfold nsRow at hx
    rcases hl : post.logprob x with e | lp
    · rw [hl] at hx; cases hx
    rw [hl] at hx
    exact ⟨lp, rfl, (Except.ok.inj hx).symm⟩

/-- C106: what is loaded from the results file is what `run` returned. -/
theorem C106_load (pk : Packages) (post : NsPost) (a : NsArgs) (s : NsSampler) (hs : SamplerName a.sampler s) (w w1 : NsWorld) (d : Text) (hd : a.outdir = some d) (t : NsTable) (ev : NsEvidence)
    (h : nsRun pk post a w = (.ok (t, ev), w1)) : loadResults w1.fs (joinPath d "results.hdf5") = .ok (t, ev) := by
  obtain ⟨samples, w0, hp, hc, h1, h2, h3⟩ := nsRun_ok hs h
  unfold saveResults at h3
  rw [hd] at h3
  change nsWrite _ _ _ = _ at h3
  unfold nsWrite at h3
  split_ifs at h3
  · cases h3
  · cases h3
    unfold loadResults
    rw [Dict.get?_set_self]
  · cases h3

/-- A case in which `C107`, `C106_table` and `C106_load` apply: ultranest with an output directory and keywords of the caller. -/
example : ∃ t ev w1, nsRun somePackages somePost (someArgs (some "out".toList) "UltraNest" (some 0) (some 1)) someNsWorld = (.ok (t, ev), w1) ∧
    SamplerName (someArgs (some "out".toList) "UltraNest" (some 0) (some 1)).sampler .ultranest ∧
    (someArgs (some "out".toList) "UltraNest" (some 0) (some 1)).Valid someNsWorld ∧ (someArgs (some "out".toList) "UltraNest" (some 0) (some 1)).Apart someNsWorld := by
  refine ⟨_, _, _, rfl, ?_, ?_, ?_⟩
  · unfold SamplerName
    decide
  · intro i hi
    rcases hi with hi | hi <;> cases hi <;> decide
  · intro i h1 h2
    cases h1
    cases h2

/-! ### C76 -/

/-- C76: a non-empty dictionary that radvel adds its keywords to is changed by a successful call, and the same call again, with `overwrite=True`, raises `ValueError`. -/
theorem C76_violated (pk : Packages) (post : NsPost) (a : NsArgs) (s : NsSampler) (hs : SamplerName a.sampler s) (w w1 : NsWorld) (i : Nat) (hi : a.target s = some i) (hne : content w (some i) ≠ [])
    (ho : a.overwrite = true) (r : NsTable × NsEvidence) (h : nsRun pk post a w = (.ok r, w1)) :
    content w1 (some i) ≠ content w (some i) ∧ (nsRun pk post a w1).1 = .error .valueError := by
  obtain ⟨t, ev⟩ := r
  obtain ⟨samples, w0, hp, hc, h1, h2, h3⟩ := nsRun_ok hs h
  have hacc := accepted_of_ok h1
  -- `resume` is there after the call
  have hres : "resume".toList ∈ reserved s := by cases s <;> simp [reserved]
  have hbefore : Dict.has (content w (some i)) "resume".toList = false := hi ▸ hacc.reserved _ hres
  have h0 : Dict.has (w0.at i) "resume".toList = true ∧ (s = .multinest → content w0 a.sampler_kwargs = []) := start_resume h1 hi hne
  have h1' : w1.heap = w0.heap := by
    have := (save_calls a t ev w0).2
    rw [h3] at this
    exact this
  have hafter : Dict.has (content w1 (some i)) "resume".toList = true := by
    show Dict.has (w1.heap[i]?.getD []) _ = true
    rw [h1']
    exact h0.1
  refine ⟨fun he => ?_, ?_⟩
  · rw [he, hbefore] at hafter
    cases hafter
  · obtain ⟨e, w', e1, _, _, e2⟩ := C78_reserved pk post a s hs w1 "resume".toList hres (by rw [hi]; exact hafter)
    have hsk : s = .multinest → content w1 a.sampler_kwargs = [] := by
      intro hm
      rw [← h0.2 hm]
      unfold content
      rw [h1']
    rw [e1, e2 hp (fun _ _ _ => .inl ho) hacc.installed hsk]

/-- A case in which `C76_violated` applies: ultranest with one keyword of the caller. -/
example : ∃ r w1, nsRun somePackages somePost (someArgs (some "out".toList) "ultranest" (some 0) none) someNsWorld = (.ok r, w1) ∧
    SamplerName (someArgs (some "out".toList) "ultranest" (some 0) none).sampler .ultranest ∧
    (someArgs (some "out".toList) "ultranest" (some 0) none).target .ultranest = some 0 ∧ content someNsWorld (some 0) ≠ [] := by
  refine ⟨_, _, rfl, ?_, rfl, by decide⟩
  unfold SamplerName
  decide

/-- C76, for callers that leave the dictionary that radvel adds to empty or `None`: after a successful call the caller's dictionaries are as before, and the same call again, with `overwrite=True`, has
the package sample with the same keywords as the first time, provided it can make its sampler and keeps to the location it is given. -/
theorem C76_partial (pk : Packages) (post : NsPost) (a : NsArgs) (s : NsSampler) (hs : SamplerName a.sampler s) (w w1 : NsWorld) (hv : a.Valid w) (hap : a.Apart w) (hsafe : a.Safe s w)
    (ho : a.overwrite = true) (hpr : a.proceed = false) (r : NsTable × NsEvidence) (h : nsRun pk post a w = (.ok r, w1)) :
    (∀ i, i < w.heap.length → w1.heap[i]? = w.heap[i]?) ∧
      (pk.Polite → (∀ fs, (pk.make s none (expectedCall s a w).init fs).1 = .ok ()) →
        w1.calls = expectedCall s a w :: w.calls ∧ (nsRun pk post a w1).2.calls = expectedCall s a w :: w1.calls) := by
  obtain ⟨t, ev⟩ := r
  have h107 := C107 pk post a s hs w w1 hv hap t ev h
  obtain ⟨samples, w0, hp, hc, h1, h2, h3⟩ := nsRun_ok hs h
  have hacc := accepted_of_ok h1
  obtain ⟨H, h4, h5⟩ := start_eq pk a s w hacc.installed hv hap hacc.multinest hacc.reserved
  replace h5 := h5 hsafe
  have hstart := h1
  rw [h4] at h1
  rcases hcore : coreOf pk a s (expectedCall s a w) (dynThere a w) w with ⟨r, wc⟩
  rw [hcore] at h1
  obtain ⟨h6, rfl⟩ := Prod.mk.inj h1
  change r = _ at h6
  subst h6
  have h1' : w1.heap = H := by
    have := (save_calls a t ev { wc with heap := H }).2
    rw [h3] at this
    exact this
  have hpre : ∀ i, i < w.heap.length → w1.heap[i]? = w.heap[i]? := by
    intro i hi
    rw [h1']
    exact h5 i hi
  refine ⟨hpre, fun hpol hmk => ⟨h107, ?_⟩⟩
  have hcont : ∀ q, q = a.sampler_kwargs ∨ q = a.run_kwargs → content w1 q = content w q := by
    intro q hq
    rcases q with _ | i
    · rfl
    · show w1.heap[i]?.getD [] = w.heap[i]?.getD []
      rw [hpre i (hv i (by rcases hq with hq | hq <;> simp [← hq]))]
  have hlen : w.heap.length ≤ w1.heap.length := by
    by_contra hlt
    have h7 := hpre w1.heap.length (by omega)
    rw [List.getElem?_eq_none (by omega), List.getElem?_eq_getElem (by omega)] at h7
    cases h7
  have hv1 : a.Valid w1 := fun i hi => Nat.lt_of_lt_of_le (hv i hi) hlen
  have hap1 : a.Apart w1 := fun i hi hi' => by rw [hcont _ (.inl hi.symm)]; exact hap i hi hi'
  have htar : content w1 (a.target s) = content w (a.target s) := hcont _ (by cases s <;> simp [NsArgs.target])
  have hcall : expectedCall s a w1 = expectedCall s a w := by
    unfold expectedCall
    rw [hcont _ (.inl rfl), hcont _ (.inr rfl), hpr]
    cases s <;> rfl
  rw [nsRun_start hs hp (check_overwrite ho w1), after_calls]
  obtain ⟨H', h8, _⟩ := start_eq pk a s w1 hacc.installed hv1 hap1 (fun hm => by rw [hcont _ (.inl rfl)]; exact hacc.multinest hm) (fun k hk => by rw [htar]; exact hacc.reserved k hk)
  rw [h8, hcall]
  exact core_calls_again hpol ho hpr hmk hcore h3

/-- A case in which `C76_partial` applies: multinest with an output directory and no keywords. -/
example : ∃ r w1, nsRun somePackages somePost (someArgs (some "out".toList) "multinest" none (some 1)) someNsWorld = (.ok r, w1) ∧
    SamplerName (someArgs (some "out".toList) "multinest" none (some 1)).sampler .multinest ∧ (someArgs (some "out".toList) "multinest" none (some 1)).Valid someNsWorld ∧
    (someArgs (some "out".toList) "multinest" none (some 1)).Apart someNsWorld ∧ (someArgs (some "out".toList) "multinest" none (some 1)).Safe .multinest someNsWorld := by
  refine ⟨_, _, rfl, .inl (by decide), ?_, ?_, by decide, fun h => by cases h⟩
  · intro i hi
    rcases hi with hi | hi <;> cases hi
    decide
  · intro i h1 h2
    cases h1

/-- The packages of the examples keep to the location they are given. -/
theorem somePackages_polite : somePackages.Polite where
  make := fun _ _ _ _ _ _ => rfl
  sample := by
    intro c fs p h
    show Dict.get? (match nsLocation c.sampler c.init c.run with | none => fs | some loc => Dict.set fs (joinPath loc "points") (.raw 7)) p = Dict.get? fs p
    rcases hl : nsLocation c.sampler c.init c.run with _ | loc
    · rfl
    · refine Dict.get?_set_ne _ _ ?_
      rintro rfl
      refine h loc hl ?_
      unfold joinPath
      split_ifs
      · exact List.prefix_append _ _
      · exact List.prefix_append _ _

/-! ### C77 -/

/-- C77, for every sampler but multinest, and for multinest if nothing is at or below `tmpdir` and the call succeeds: with `output_dir=None`, whether or not the call succeeds, every path is as before, for packages that write
only to the location they are given. -/
theorem C77_partial (pk : Packages) (hpol : pk.Polite) (post : NsPost) (a : NsArgs) (s : NsSampler) (hs : SamplerName a.sampler s) (w : NsWorld) (hv : a.Valid w) (hap : a.Apart w) (ho : a.outdir = none)
    (hm : s = .multinest → (∀ q, Below "tmpdir".toList q → Dict.get? w.fs q = none) ∧ ∃ r, (nsRun pk post a w).1 = .ok r) (p : Text) :
    Dict.get? (nsRun pk post a w).2.fs p = Dict.get? w.fs p := by
  rcases hp : post.proper with e | u
  · rw [show nsRun pk post a w = (.error e, w) from nsm_of_error (by unfold nsLift; rw [hp])]
  have hck : checkResults a w = (.ok (), w) := check_ok (fun d hd => by rw [ho] at hd; cases hd)
  rw [nsRun_start hs hp hck] at hm ⊢
  rw [after_fs post a ho]
  by_cases hacc : Accepted pk a s w
  · obtain ⟨H, h4, _⟩ := start_eq pk a s w hacc.installed hv hap hacc.multinest hacc.reserved
    have hok : s = .multinest → (∀ q, Below "tmpdir".toList q → Dict.get? w.fs q = none) ∧ ∃ r, (coreOf pk a s (expectedCall s a w) (dynThere a w) w).1 = .ok r := by
      intro hmn
      refine ⟨(hm hmn).1, ?_⟩
      obtain ⟨r, hr⟩ := (hm hmn).2
      rcases hx : startOf pk a s w with ⟨x, w'⟩
      rcases x with e | x
      · rw [nsm_of_error hx] at hr
        cases hr
      · rw [h4] at hx
        exact ⟨x, (Prod.mk.inj hx).1⟩
    rw [h4]
    exact core_files hpol ho hacc.reserved hok p
  · obtain ⟨e, w', h1, h2, _⟩ := start_bad pk a s w hacc
    rw [h1]
    show Dict.get? w'.fs p = _
    rw [h2]

/-- A case in which `C77_partial` applies. -/
example : SamplerName (someArgs none "nautilus" (some 0) none).sampler .nautilus ∧ (someArgs none "nautilus" (some 0) none).Valid someNsWorld ∧ (someArgs none "nautilus" (some 0) none).Apart someNsWorld ∧
    ∃ r w', nsRun somePackages somePost (someArgs none "nautilus" (some 0) none) someNsWorld = (.ok r, w') := by
  refine ⟨?_, ?_, ?_, _, _, rfl⟩
  · unfold SamplerName
    decide
  · intro i hi
    rcases hi with hi | hi <;> cases hi
    decide
  · intro i h1 h2
    cases h2

/-- A case in which `C77_partial` applies to multinest. -/
example : (∀ q, Below "tmpdir".toList q → Dict.get? someNsWorld.fs q = none) ∧ ∃ r w', nsRun somePackages somePost (someArgs none "multinest" none (some 0)) someNsWorld = (.ok r, w') := by
  refine ⟨?_, _, _, rfl⟩
  intro q hq
  have hb : ∀ x, x = "out".toList ∨ x = "out/notes".toList → x ≠ q := by
    rintro x hx rfl
    rcases hx with rfl | rfl <;> rcases hq with hq | hq <;> revert hq <;> decide
  rw [Dict.get?_eq_none_iff]
  intro hm
  have hm : q ∈ ["out".toList, "out/notes".toList] := hm
  rcases List.mem_cons.mp hm with h | h
  · exact hb q (.inl h) rfl
  · exact hb q (.inr (List.mem_singleton.mp h)) rfl

/-- C77: multinest with `output_dir=None` deletes everything at and below `tmpdir` in the working directory, whatever was there before. -/
theorem C77_tmpdir_violated (pk : Packages) (post : NsPost) (a : NsArgs) (hs : SamplerName a.sampler .multinest) (w w1 : NsWorld) (hv : a.Valid w) (hap : a.Apart w) (ho : a.outdir = none) (r : NsTable × NsEvidence)
    (h : nsRun pk post a w = (.ok r, w1)) (p : Text) (hp : Below "tmpdir".toList p) : Dict.get? w1.fs p = none := by
  obtain ⟨t, ev⟩ := r
  obtain ⟨samples, w0, hpr, hc, h1, h2, h3⟩ := nsRun_ok hs h
  have hacc := accepted_of_ok h1
  obtain ⟨H, h4, _⟩ := start_eq pk a .multinest w hacc.installed hv hap hacc.multinest hacc.reserved
  rw [h4] at h1
  rcases hcore : coreOf pk a .multinest (expectedCall .multinest a w) (dynThere a w) w with ⟨x, wc⟩
  rw [hcore] at h1
  obtain ⟨h6, rfl⟩ := Prod.mk.inj h1
  change x = _ at h6
  subst h6
  unfold saveResults at h3
  rw [ho] at h3
  cases h3
  show Dict.get? wc.fs p = none
  obtain ⟨w2, hx⟩ := core_clean ho hcore
  rw [hx, get?_filter_key w2.fs (fun q => !(q = "tmpdir".toList) && !(("tmpdir".toList ++ ['/']).isPrefixOf q)), if_neg]
  rcases hp with rfl | hp
  · simp
  · rw [List.isPrefixOf_iff_prefix.mpr hp]
    simp

/-- A case in which `C77_tmpdir_violated` applies: the caller has a file in a directory of that name. -/
example : ∃ r w1, nsRun somePackages somePost (someArgs none "multinest" none none) { someNsWorld with fs := [("tmpdir".toList, .dir), ("tmpdir/thesis".toList, .raw 1)] } = (.ok r, w1) ∧
    Below "tmpdir".toList "tmpdir/thesis".toList := by
  refine ⟨_, _, rfl, .inr ?_⟩
  decide

/-- C77: a call of multinest with `output_dir=None` that raises while sampling leaves the directory `tmpdir` behind. -/
theorem C77_leftover_violated (pk : Packages) (hpol : pk.Polite) (post : NsPost) (a : NsArgs) (hs : SamplerName a.sampler .multinest) (w : NsWorld) (hv : a.Valid w) (hap : a.Apart w) (ho : a.outdir = none)
    (hacc : Accepted pk a .multinest w) (hp : post.proper = .ok ()) (hnew : Dict.get? w.fs "tmpdir".toList = none) (hfail : ∀ fs, ∃ e, (pk.sample (expectedCall .multinest a w) fs).1 = .error e) :
    Dict.get? (nsRun pk post a w).2.fs "tmpdir".toList = some .dir := by
  have hck : checkResults a w = (.ok (), w) := check_ok (fun d hd => by rw [ho] at hd; cases hd)
  rw [nsRun_start hs hp hck, after_fs post a ho]
  obtain ⟨H, h4, _⟩ := start_eq pk a .multinest w hacc.installed hv hap hacc.multinest hacc.reserved
  rw [h4]
  show Dict.get? (coreOf pk a .multinest _ _ w).2.fs _ = _
  have hmd : nsMakeDirs (a.outdir.getD "tmpdir".toList) (a.outdir.isNone || (a.overwrite || a.proceed) || a.proceed) w = (.ok (), { w with fs := Dict.set w.fs "tmpdir".toList .dir }) := by
    rw [ho]
    exact makeDirs_tmp hnew
  show Dict.get? ((nsMakeDirs _ _ >>= _) w).2.fs _ = _
  rw [nsm_of_ok hmd]
  obtain ⟨e, he⟩ := hfail (Dict.set w.fs "tmpdir".toList .dir)
  rw [nsm_of_error (show nsSample pk (expectedCall .multinest a w) { w with fs := Dict.set w.fs "tmpdir".toList .dir } = (.error e, _) by unfold nsSample; rw [he])]
  show Dict.get? (pk.sample _ (Dict.set w.fs "tmpdir".toList .dir)).2 _ = _
  rw [hpol.sample]
  · exact Dict.get?_set_self _ _ _
  · intro loc hloc
    rw [multinest_location] at hloc
    cases hloc
    rw [ho]
    decide

/-- A case in which `C77_leftover_violated` applies: a package that always raises. -/
example : let pk : Packages := { somePackages with sample := fun _ fs => (.error .runtimeError, fs) }
    pk.Polite ∧ Accepted pk (someArgs none "multinest" none none) .multinest someNsWorld ∧ Dict.get? someNsWorld.fs "tmpdir".toList = none := by
  refine ⟨⟨fun _ _ _ _ _ _ => rfl, fun _ _ _ _ => rfl⟩, ⟨rfl, fun _ => rfl, fun _ _ => rfl⟩, ?_⟩
  rfl

/-! ### C108 -/

/-- C108: dynesty never samples into an output directory that exists but has no `sampler.save`: `FileExistsError`, even with `overwrite=True` or `proceed=True`. -/
theorem C108_dynesty_violated (pk : Packages) (hpol : pk.Polite) (post : NsPost) (a : NsArgs) (s : NsSampler) (hdyn : s = .dynestyStatic ∨ s = .dynestyDynamic) (hs : SamplerName a.sampler s) (w : NsWorld) (hv : a.Valid w) (hap : a.Apart w)
    (hacc : Accepted pk a s w) (hp : post.proper = .ok ()) (ho : a.overwrite = true ∨ a.proceed = true) (d : Text) (hd : a.outdir = some d) (hne : d ≠ []) (hl : d.getLast? ≠ some '/')
    (hdir : fsIsDir w.fs d = true) (hno : Dict.get? w.fs (joinPath d "sampler.save") = none) (hpar : dirName d = [] ∨ fsExists w.fs (dirName d) = true)
    (hmk : ∀ fs, (pk.make s none (content w a.sampler_kwargs) fs).1 = .ok ()) :
    (nsRun pk post a w).1 = .error .fileExistsError ∧ (nsRun pk post a w).2.calls = w.calls := by
  have hck : checkResults a w = (.ok (), w) := check_ok (fun _ _ _ => ho)
  rw [nsRun_start hs hp hck]
  obtain ⟨H, h4, _⟩ := start_eq pk a s w hacc.installed hv hap hacc.multinest hacc.reserved
  have hcp : checkpoint a = some (joinPath d "sampler.save") := by unfold checkpoint; rw [hd]; rfl
  have hth : dynThere a w = false := by
    unfold dynThere
    rw [hcp]
    show fsExists _ _ = false
    unfold fsExists Dict.has
    rw [hno]
    rfl
  have hcall : (expectedCall s a w).sampler = s ∧ (expectedCall s a w).restore = none ∧ (expectedCall s a w).init = content w a.sampler_kwargs := by
    have : (checkpoint a).any (fsExists w.fs) = false := hth
    rcases hdyn with rfl | rfl <;> unfold expectedCall <;> simp only [this, Bool.and_false, Bool.false_eq_true, if_false] <;> exact ⟨trivial, trivial, trivial⟩
  have hmake : nsMake pk s none (content w a.sampler_kwargs) w = (.ok (), { w with fs := (pk.make s none (content w a.sampler_kwargs) w.fs).2 }) := by
    unfold nsMake
    rw [hmk]
  have hkeep : ∀ q, Dict.get? (pk.make s none (content w a.sampler_kwargs) w.fs).2 q = Dict.get? w.fs q := by
    intro q
    refine hpol.make _ _ _ _ _ ?_
    intro loc hloc
    have : nsLocation s (content w a.sampler_kwargs) [] = none := by rcases hdyn with rfl | rfl <;> rfl
    rw [this] at hloc
    cases hloc
  have hfail : nsMakeDirs d false { w with fs := (pk.make s none (content w a.sampler_kwargs) w.fs).2 } = (.error .fileExistsError, { w with fs := (pk.make s none (content w a.sampler_kwargs) w.fs).2 }) := by
    unfold nsMakeDirs
    have hm : mkDir (pk.make s none (content w a.sampler_kwargs) w.fs).2 d = .error .fileExistsError := by
      unfold mkDir
      rw [if_neg hne, exists_of_get (hkeep d), fsIsDir_exists hdir]
      rfl
    have : makeDirs d.length (pk.make s none (content w a.sampler_kwargs) w.fs).2 d false = .error .fileExistsError := by
      cases d with
      | nil => exact absurd rfl hne
      | cons x t =>
        show makeDirs (t.length + 1) _ _ _ = _
        unfold makeDirs
        rw [if_neg]
        · simpa using hm
        · rintro ⟨h1, h2⟩
          rw [exists_of_get (hkeep _)] at h2
          rcases hpar with hpar | hpar
          · exact h1 hpar
          · rw [hpar] at h2; cases h2
    simp only
    rw [this]
  have hcore : coreOf pk a s (expectedCall s a w) (dynThere a w) w = (.error .fileExistsError, { w with fs := (pk.make s none (content w a.sampler_kwargs) w.fs).2 }) := by
    have : coreOf pk a s (expectedCall s a w) (dynThere a w) = (nsMake pk (expectedCall s a w).sampler (expectedCall s a w).restore (expectedCall s a w).init >>= fun _ => dynestyTail pk a (expectedCall s a w) (dynThere a w)) := by
      rcases hdyn with rfl | rfl <;> rfl
    rw [this, hcall.1, hcall.2.1, hcall.2.2, nsm_of_ok hmake]
    unfold dynestyTail
    refine nsm_of_error ?_
    rw [hcp, hth]
    show nsMakeDirs (dirName (joinPath d "sampler.save")) false _ = _
    rw [dirName_join d _ hne hl (by decide)]
    exact hfail
  have hst : startOf pk a s w = (.error .fileExistsError, { w with heap := H, fs := (pk.make s none (content w a.sampler_kwargs) w.fs).2 }) := by
    rw [h4, hcore]
    rfl
  rw [nsm_of_error hst]
  exact ⟨rfl, rfl⟩

/-- A case in which `C108_dynesty_violated` applies. -/
example : Accepted somePackages (someArgs (some "out".toList) "dynesty-static" none none) .dynestyStatic someNsWorld ∧ fsIsDir someNsWorld.fs "out".toList = true ∧
    Dict.get? someNsWorld.fs (joinPath "out".toList "sampler.save") = none ∧ dirName "out".toList = [] := by
  refine ⟨⟨rfl, fun h => (by cases h), fun _ _ => rfl⟩, rfl, rfl, by decide⟩

/-- C108, for the other samplers: with `overwrite=True` an output directory that exists is used: the package samples. -/
theorem C108_partial (pk : Packages) (post : NsPost) (a : NsArgs) (s : NsSampler) (hs : SamplerName a.sampler s) (hnd : s ≠ .dynestyStatic ∧ s ≠ .dynestyDynamic) (w : NsWorld) (hv : a.Valid w) (hap : a.Apart w)
    (hacc : Accepted pk a s w) (hp : post.proper = .ok ()) (ho : a.overwrite = true) (d : Text) (hd : a.outdir = some d) (hdir : fsIsDir w.fs d = true) (hpar : dirName d = [] ∨ fsExists w.fs (dirName d) = true)
    (hmk : ∀ fs, (pk.make s none (expectedCall s a w).init fs).1 = .ok ()) : (nsRun pk post a w).2.calls = expectedCall s a w :: w.calls := by
  rw [nsRun_start hs hp (check_overwrite ho w), after_calls]
  obtain ⟨H, h4, _⟩ := start_eq pk a s w hacc.installed hv hap hacc.multinest hacc.reserved
  rw [h4]
  show (coreOf pk a s (expectedCall s a w) (dynThere a w) w).2.calls = _
  cases s with
  | dynestyStatic => exact absurd rfl hnd.1
  | dynestyDynamic => exact absurd rfl hnd.2
  | ultranest =>
    obtain ⟨fs, h5⟩ := make_ok (w := w) (hmk w.fs)
    show ((nsMake pk .ultranest none (expectedCall .ultranest a w).init >>= _) w).2.calls = _
    rw [nsm_of_ok h5]
    rfl
  | nautilus =>
    obtain ⟨fs, h5⟩ := make_ok (w := w) (hmk w.fs)
    show ((nsMake pk .nautilus none (expectedCall .nautilus a w).init >>= _) w).2.calls = _
    rw [nsm_of_ok h5]
    rfl
  | multinest =>
    have hmd : nsMakeDirs (a.outdir.getD "tmpdir".toList) (a.outdir.isNone || (a.overwrite || a.proceed) || a.proceed) w = (.ok (), w) := by
      rw [hd, ho]
      unfold nsMakeDirs
      simp only [Option.getD_some, Bool.true_or, Bool.or_true]
      rw [makeDirs_again _ _ _ hdir hpar]
    show ((nsMakeDirs _ _ >>= _) w).2.calls = _
    rw [nsm_of_ok hmd]
    refine sample_calls pk _ _ _ fun r w => ?_
    rw [hd]
    rfl

/-- A case in which `C108_partial` applies. -/
example : Accepted somePackages (someArgs (some "out".toList) "multinest" none (some 0)) .multinest someNsWorld ∧ fsIsDir someNsWorld.fs "out".toList = true := by
  refine ⟨⟨rfl, fun _ => rfl, ?_⟩, rfl⟩
  intro k hk
  simp only [reserved, List.mem_cons, List.not_mem_nil, or_false] at hk
  rcases hk with rfl | rfl <;> decide

end Radvel
