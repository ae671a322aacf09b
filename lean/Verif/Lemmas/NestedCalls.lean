import Verif.Lemmas.NestedSampling

/-! What the packages are called with. -/

namespace Radvel

/-- What is done after the keywords are ready. -/
def coreOf (pk : Packages) (a : NsArgs) (s : NsSampler) (c : NsCall) (there : Bool) : NsM (List (List Fl) × NsEvidence) :=
  match s with
  | .multinest => do
    nsMakeDirs (a.outdir.getD "tmpdir".toList) (a.outdir.isNone || (a.overwrite || a.proceed) || a.proceed)
    let res ← nsSample pk c
    multinestClean a.outdir
    pure res
  | .dynestyStatic => do
    nsMake pk c.sampler c.restore c.init
    dynestyDir (checkpoint a) there
    let res ← nsSample pk c
    dynestySave (checkpoint a)
    pure res
  | .dynestyDynamic => do
    nsMake pk c.sampler c.restore c.init
    dynestyDir (checkpoint a) there
    let res ← nsSample pk c
    dynestySave (checkpoint a)
    pure res
  | _ => do
    nsMake pk c.sampler c.restore c.init
    nsSample pk c

theorem orEmpty_two (r1 r2 : Option Nat) (w : NsWorld) (hv1 : ∀ i, r1 = some i → i < w.heap.length) (hv2 : ∀ i, r2 = some i → i < w.heap.length)
    (hap : ∀ i, r1 = some i → r2 = some i → content w (some i) = []) :
    ∃ i j W, nsOrEmpty r1 w = (.ok i, (nsOrEmpty r1 w).2) ∧ nsOrEmpty r2 (nsOrEmpty r1 w).2 = (.ok j, W) ∧ i ≠ j ∧ i < W.heap.length ∧ j < W.heap.length ∧ W.at i = content w r1 ∧ W.at j = content w r2 ∧
      W.fs = w.fs ∧ W.calls = w.calls ∧ (∃ ext, W.heap = w.heap ++ ext) ∧ (content w r1 = [] → w.heap.length ≤ i) ∧ (content w r2 = [] → w.heap.length ≤ j) := by
  obtain ⟨i, ext, h1, h2, h3⟩ := orEmpty_spec r1 w
  obtain ⟨j, ext', h4, h5, h6⟩ := orEmpty_spec r2 { w with heap := w.heap ++ ext }
  have hc : content { w with heap := w.heap ++ ext } r2 = content w r2 := by
    rcases r2 with _ | n
    · rfl
    · show (w.heap ++ ext)[n]?.getD [] = w.heap[n]?.getD []
      rw [List.getElem?_append_left (hv2 n rfl)]
  rw [hc] at h5 h6
  refine ⟨i, j, _, by rw [h1], by rw [h1]; exact h4, ?_⟩
  by_cases c1 : content w r1 = []
  · obtain ⟨rfl, rfl⟩ := h2 c1
    by_cases c2 : content w r2 = []
    · obtain ⟨rfl, rfl⟩ := h5 c2
      refine ⟨by simp, by simp, by simp, ?_, ?_, rfl, rfl, ⟨_, List.append_assoc _ _ _⟩, fun _ => Nat.le_refl _, fun _ => by simp⟩
      · rw [c1]; simp [NsWorld.at]
      · rw [c2]; simp [NsWorld.at]
    · obtain ⟨rfl, rfl⟩ := h6 c2
      have := hv2 j rfl
      refine ⟨by omega, by simp, by simp; omega, ?_, ?_, rfl, rfl, ⟨_, List.append_assoc _ _ _⟩, fun _ => Nat.le_refl _, fun h => absurd h c2⟩
      · rw [c1]; simp [NsWorld.at]
      · simp [NsWorld.at, content, List.getElem?_append_left this]
  · obtain ⟨rfl, rfl⟩ := h3 c1
    have hi := hv1 i rfl
    by_cases c2 : content w r2 = []
    · obtain ⟨rfl, rfl⟩ := h5 c2
      refine ⟨by simp; omega, by simp; omega, by simp, ?_, ?_, rfl, rfl, ⟨_, List.append_assoc _ _ _⟩, fun h => absurd h c1, fun _ => by simp⟩
      · simp [NsWorld.at, content, List.getElem?_append_left hi]
      · rw [c2]; simp [NsWorld.at]
    · obtain ⟨rfl, rfl⟩ := h6 c2
      have hj := hv2 j rfl
      refine ⟨?_, by simp; omega, by simp; omega, ?_, ?_, rfl, rfl, ⟨_, List.append_assoc _ _ _⟩, fun h => absurd h c1, fun h => absurd h c2⟩
      · rintro rfl
        exact c1 (hap i rfl rfl)
      · simp [NsWorld.at, content]
      · simp [NsWorld.at, content]

theorem reject_pass {r : Nat} {key : String} {w : NsWorld} (h : Dict.has (w.at r) key.toList = false) : nsReject r key w = (.ok (), w) := by
  unfold nsReject
  unfold NsWorld.at at h
  rw [h]
  rfl

theorem raiseIf_pass (e : PyErr) (w : NsWorld) : nsRaiseIf (!true) e w = (.ok (), w) := rfl

theorem kwargs_has_set_ne {d : Kwargs} {k k' : Text} {v : NsValue} (h : k ≠ k') : Dict.has (Dict.set d k v) k' = Dict.has d k' := by
  unfold Dict.has
  rw [Dict.get?_set_ne _ _ h]

/-- A change of one dictionary. -/
def setAt (w : NsWorld) (r : Nat) (d : Kwargs) : NsWorld := { w with heap := w.heap.set r d }

theorem put_eq (r : Nat) (key : String) (v : NsValue) (w : NsWorld) : nsPut r key v w = (.ok (), setAt w r (Dict.set (w.at r) key.toList v)) := rfl

theorem setAt_at {w : NsWorld} {r : Nat} (h : r < w.heap.length) (d : Kwargs) : (setAt w r d).at r = d := by
  simp [setAt, NsWorld.at, h]

theorem setAt_at_ne {w : NsWorld} {r j : Nat} (h : r ≠ j) (d : Kwargs) : (setAt w r d).at j = w.at j := by
  simp [setAt, NsWorld.at, h]

theorem setAt_length (w : NsWorld) (r : Nat) (d : Kwargs) : (setAt w r d).heap.length = w.heap.length := by simp [setAt]

theorem setAt_setAt (w : NsWorld) (r : Nat) (d d' : Kwargs) : setAt (setAt w r d) r d' = setAt w r d' := by simp [setAt]

theorem setAt_get {w : NsWorld} {r n : Nat} (h : n < r) (d : Kwargs) : (setAt w r d).heap[n]? = w.heap[n]? := by
  simp only [setAt]
  rw [List.getElem?_set_ne (by omega)]

theorem get_eq (r : Nat) (w : NsWorld) : nsGet r w = (.ok (w.at r), w) := rfl

theorem pathValue_set {d : Kwargs} {k : String} {t : Text} : pathValue (Dict.set d k.toList (.text t)) k = some t := by
  unfold pathValue
  rw [Dict.get?_set_self]

theorem pathValue_absent {d : Kwargs} {k : String} (h : Dict.has d k.toList = false) : pathValue d k = none := by
  unfold pathValue
  unfold Dict.has at h
  rcases hg : d.get? k.toList with _ | v
  · rfl
  · rw [hg] at h
    cases h

/-- Equal on the caller's dictionaries. -/
def SamePrefix (w : NsWorld) (H : NsWorld) : Prop := ∀ n, n < w.heap.length → H.heap[n]? = w.heap[n]?

theorem samePrefix_append {w W : NsWorld} {ext : List Kwargs} (h : W.heap = w.heap ++ ext) : SamePrefix w W := by
  intro n hn
  rw [h, List.getElem?_append_left hn]

theorem samePrefix_setAt {w W : NsWorld} (h : SamePrefix w W) {r : Nat} (hr : w.heap.length ≤ r) (d : Kwargs) : SamePrefix w (setAt W r d) := by
  intro n hn
  rw [setAt_get (by omega)]
  exact h n hn

theorem make_get {β : Type} (pk : Packages) (s : NsSampler) (r : Option Text) (init : Kwargs) (i : Nat) (f : Kwargs → NsM β) (W : NsWorld) :
    (nsMake pk s r init >>= fun _ => nsGet i >>= f) W = (nsMake pk s r init >>= fun _ => f (W.at i)) W := by
  rw [nsm_bind, nsm_bind]
  unfold nsMake
  rcases (pk.make s r init W.fs).1 with e | u
  · rfl
  · rfl

theorem ultranest_eq (pk : Packages) (a : NsArgs) (w : NsWorld) (hin : pk.installed .ultranest = true) (hv : a.Valid w) (hap : a.Apart w)
    (hno : ∀ k ∈ reserved .ultranest, Dict.has (content w a.sampler_kwargs) k = false) :
    ∃ W, startOf pk a .ultranest w = coreOf pk a .ultranest (expectedCall .ultranest a w) false W ∧ W.fs = w.fs ∧ W.calls = w.calls ∧ (content w a.sampler_kwargs = [] → SamePrefix w W) := by
  obtain ⟨i, j, W, h1, h2, hij, hi, hj, ai, aj, hfs, hcalls, ⟨ext, hext⟩, _, hjl⟩ :=
    orEmpty_two a.run_kwargs a.sampler_kwargs w (fun i h => hv i (.inr h)) (fun i h => hv i (.inl h)) (fun i h h' => hap i h' h)
  have r1 : Dict.has (W.at j) "log_dir".toList = false := by rw [aj]; exact hno _ (by simp [reserved])
  have r2 : Dict.has (W.at j) "resume".toList = false := by rw [aj]; exact hno _ (by simp [reserved])
  refine ⟨setAt W j (expectedCall .ultranest a w).init, ?_, hfs, hcalls, fun he => samePrefix_setAt (samePrefix_append hext) (hjl he) _⟩
  show runUltranest pk a.outdir a.proceed a.sampler_kwargs a.run_kwargs w = _
  unfold runUltranest
  rw [hin]
  rw [nsm_of_ok (raiseIf_pass _ _), nsm_of_ok h1, nsm_of_ok h2, nsm_of_ok (reject_pass r1), nsm_of_ok (reject_pass r2), nsm_of_ok (put_eq _ _ _ _), nsm_of_ok (put_eq _ _ _ _),
    setAt_at hj, setAt_setAt, aj]
  rw [nsm_of_ok (get_eq _ _), setAt_at hj]
  refine (make_get _ _ _ _ _ _ _).trans ?_
  rw [setAt_at_ne (Ne.symm hij), ai]
  rfl

theorem nautilus_eq (pk : Packages) (a : NsArgs) (w : NsWorld) (hin : pk.installed .nautilus = true) (hv : a.Valid w) (hap : a.Apart w)
    (hno : ∀ k ∈ reserved .nautilus, Dict.has (content w a.sampler_kwargs) k = false) :
    ∃ W, startOf pk a .nautilus w = coreOf pk a .nautilus (expectedCall .nautilus a w) false W ∧ W.fs = w.fs ∧ W.calls = w.calls ∧ (a.Safe .nautilus w → SamePrefix w W) := by
  obtain ⟨i, j, W, h1, h2, hij, hi, hj, ai, aj, hfs, hcalls, ⟨ext, hext⟩, hil, hjl⟩ :=
    orEmpty_two a.sampler_kwargs a.run_kwargs w (fun i h => hv i (.inl h)) (fun i h => hv i (.inr h)) (fun i h h' => hap i h h')
  have r1 : Dict.has (content w a.sampler_kwargs) "filepath".toList = false := hno _ (by simp [reserved])
  have r2 : Dict.has (content w a.sampler_kwargs) "resume".toList = false := hno _ (by simp [reserved])
  -- the run keywords
  obtain ⟨W1, e1, W1fs, W1calls, W1i, W1j, W1len, W1pre⟩ : ∃ W1, nsSetDefault j "verbose" (.flag true) W = (.ok (), W1) ∧ W1.fs = w.fs ∧ W1.calls = w.calls ∧ W1.at i = content w a.sampler_kwargs ∧
      W1.at j = (expectedCall .nautilus a w).run ∧ i < W1.heap.length ∧ (a.Safe .nautilus w → SamePrefix w W1) := by
    by_cases hh : Dict.has (W.at j) "verbose".toList = true
    · refine ⟨W, ?_, hfs, hcalls, ai, ?_, hi, fun _ => samePrefix_append hext⟩
      · unfold nsSetDefault
        unfold NsWorld.at at hh
        rw [if_pos hh]
      · rw [aj] at hh ⊢
        unfold expectedCall
        simp only
        rw [if_pos hh]
    · refine ⟨setAt W j (Dict.set (W.at j) "verbose".toList (.flag true)), ?_, hfs, hcalls, (setAt_at_ne (Ne.symm hij) _).trans ai, ?_, by rw [setAt_length]; exact hi, fun hs => samePrefix_setAt (samePrefix_append hext) ?_ _⟩
      · unfold nsSetDefault
        unfold NsWorld.at at hh
        rw [if_neg hh]
        rfl
      · rw [setAt_at hj]
        rw [aj] at hh ⊢
        unfold expectedCall
        simp only
        rw [if_neg hh]
      · rcases hs.2 rfl with h | h
        · exact hjl h
        · rw [aj] at hh
          exact absurd h hh
  -- the path
  obtain ⟨W2, e2, W2fs, W2calls, W2i, W2j, W2len, W2pre⟩ : ∃ W2, nsPutPath i "filepath" a.outdir "nautilus_output.hdf5" W1 = (.ok (), W2) ∧ W2.fs = w.fs ∧ W2.calls = w.calls ∧
      W2.at i = withPath (content w a.sampler_kwargs) "filepath" (a.outdir.map fun d => joinPath d "nautilus_output.hdf5") ∧ W2.at j = (expectedCall .nautilus a w).run ∧ i < W2.heap.length ∧ (a.Safe .nautilus w → SamePrefix w W2) := by
    rcases hd : a.outdir with _ | d
    · exact ⟨W1, rfl, W1fs, W1calls, W1i, W1j, W1len, W1pre⟩
    · refine ⟨_, put_eq _ _ _ _, W1fs, W1calls, ?_, (setAt_at_ne hij _).trans W1j, by rw [setAt_length]; exact W1len, fun hs => samePrefix_setAt (W1pre hs) (hil hs.1) _⟩
      rw [setAt_at W1len, W1i]
      rfl
  have r2' : Dict.has (W2.at i) "resume".toList = false := by
    rw [W2i]
    rcases a.outdir with _ | d
    · exact r2
    · show Dict.has (Dict.set _ _ _) _ = false
      rw [kwargs_has_set_ne (by decide)]
      exact r2
  refine ⟨setAt W2 i (expectedCall .nautilus a w).init, ?_, W2fs, W2calls, fun hs => samePrefix_setAt (W2pre hs) (hil hs.1) _⟩
  show runNautilus pk a.outdir a.proceed a.sampler_kwargs a.run_kwargs w = _
  unfold runNautilus
  rw [hin]
  rw [nsm_of_ok (raiseIf_pass _ _), nsm_of_ok h1, nsm_of_ok h2, nsm_of_ok e1, nsm_of_ok (reject_pass (by rw [W1i]; exact r1)), nsm_of_ok e2, nsm_of_ok (reject_pass r2'), nsm_of_ok (put_eq _ _ _ _), W2i,
    nsm_of_ok (get_eq _ _), setAt_at W2len]
  refine (make_get _ _ _ _ _ _ _).trans ?_
  rw [setAt_at_ne hij, W2j]
  rfl

theorem multinest_eq (pk : Packages) (a : NsArgs) (w : NsWorld) (hin : pk.installed .multinest = true) (hv : a.Valid w) (hsk : content w a.sampler_kwargs = [])
    (hno : ∀ k ∈ reserved .multinest, Dict.has (content w a.run_kwargs) k = false) :
    ∃ W, startOf pk a .multinest w = coreOf pk a .multinest (expectedCall .multinest a w) false W ∧ W.fs = w.fs ∧ W.calls = w.calls ∧ (content w a.run_kwargs = [] → SamePrefix w W) := by
  have hne : nsNonEmpty a.sampler_kwargs w = (.ok false, w) := by
    unfold nsNonEmpty
    rcases h : a.sampler_kwargs with _ | j
    · rfl
    · rw [h] at hsk
      change w.heap[j]?.getD [] = [] at hsk
      simp only
      rw [hsk]
      rfl
  obtain ⟨i, ext, h1, h2, h3⟩ := orEmpty_spec a.run_kwargs w
  have hi : i < (w.heap ++ ext).length ∧ NsWorld.at { w with heap := w.heap ++ ext } i = content w a.run_kwargs ∧ (content w a.run_kwargs = [] → w.heap.length ≤ i) := by
    by_cases c : content w a.run_kwargs = []
    · obtain ⟨rfl, rfl⟩ := h2 c
      refine ⟨by simp, ?_, fun _ => Nat.le_refl _⟩
      rw [c]; simp [NsWorld.at]
    · obtain ⟨hr, rfl⟩ := h3 c
      have := hv i (.inr hr)
      refine ⟨by simp; omega, ?_, fun h => absurd h c⟩
      rw [hr]; simp [NsWorld.at, content]
  obtain ⟨hi, ai, hil⟩ := hi
  have r1 : Dict.has (content w a.run_kwargs) "outputfiles_basename".toList = false := hno _ (by simp [reserved])
  have r2 : Dict.has (content w a.run_kwargs) "resume".toList = false := hno _ (by simp [reserved])
  refine ⟨setAt { w with heap := w.heap ++ ext } i (expectedCall .multinest a w).run, ?_, rfl, rfl, fun he => samePrefix_setAt (samePrefix_append rfl) (hil he) _⟩
  show startMultinest pk a w = _
  unfold startMultinest
  rw [nsm_of_ok hne, nsm_of_ok (show nsRaiseIf false .typeError w = (.ok (), w) from rfl)]
  unfold runMultinest
  rw [hin]
  rw [nsm_of_ok (raiseIf_pass _ _), nsm_of_ok h1, nsm_of_ok (reject_pass (by rw [ai]; exact r1)), nsm_of_ok (put_eq _ _ _ _), ai,
    nsm_of_ok (reject_pass (by rw [setAt_at hi, kwargs_has_set_ne (by decide)]; exact r2)), nsm_of_ok (put_eq _ _ _ _), setAt_at hi, setAt_setAt]
  show (nsMakeDirs _ _ >>= _) (setAt _ i (expectedCall .multinest a w).run) = (nsMakeDirs _ _ >>= _) _
  rw [nsm_bind, nsm_bind]
  unfold nsMakeDirs
  rcases makeDirs _ _ _ _ with e | fs
  · rfl
  · show (nsGet i >>= _) _ = _
    rw [nsm_of_ok (get_eq _ _)]
    rw [show NsWorld.at { (setAt { w with heap := w.heap ++ ext } i (expectedCall .multinest a w).run) with fs := fs } i = (expectedCall .multinest a w).run from setAt_at hi _]
    rfl

/-- A step that does not look at the dictionaries. -/
def HeapFree {α : Type} (m : NsM α) : Prop := ∀ w X, m { w with heap := X } = ((m w).1, { (m w).2 with heap := X })

theorem heapFree_bind {α β : Type} {m : NsM α} {f : α → NsM β} (hm : HeapFree m) (hf : ∀ a, HeapFree (f a)) : HeapFree (m >>= f) := by
  intro w X
  rw [nsm_bind, nsm_bind, hm w X]
  rcases hw : m w with ⟨r, w1⟩
  rcases r with e | a
  · rfl
  · exact hf a w1 X

theorem heapFree_pure {α : Type} (a : α) : HeapFree (pure a : NsM α) := fun _ _ => rfl
theorem heapFree_make (pk : Packages) (s : NsSampler) (r : Option Text) (init : Kwargs) : HeapFree (nsMake pk s r init) := fun _ _ => rfl
theorem heapFree_sample (pk : Packages) (c : NsCall) : HeapFree (nsSample pk c) := fun _ _ => rfl
theorem heapFree_makeDirs (p : Text) (ok : Bool) : HeapFree (nsMakeDirs p ok) := by intro w X; unfold nsMakeDirs; simp only; split <;> rfl
theorem heapFree_removeTree (p : Text) : HeapFree (nsRemoveTree p) := by intro w X; unfold nsRemoveTree; simp only; split <;> rfl
theorem heapFree_write (p : Text) (c : FsNode) : HeapFree (nsWrite p c) := by intro w X; unfold nsWrite; simp only; split_ifs <;> rfl
theorem heapFree_lift {α : Type} (x : Except PyErr α) : HeapFree (nsLift x) := fun _ _ => rfl
theorem heapFree_check (a : NsArgs) : HeapFree (checkResults a) := by
  intro w X
  unfold checkResults
  simp only
  rcases a.outdir with _ | d
  · rfl
  · simp only
    split_ifs <;> rfl
theorem heapFree_save (a : NsArgs) (t : NsTable) (ev : NsEvidence) : HeapFree (saveResults a t ev) := by
  unfold saveResults
  split
  · exact heapFree_pure _
  · exact heapFree_write _ _

theorem heapFree_dynestyDir (ck : Option Text) (there : Bool) : HeapFree (dynestyDir ck there) := by
  cases ck
  · exact heapFree_pure _
  · unfold dynestyDir
    simp only
    split_ifs
    · exact heapFree_pure _
    · exact heapFree_makeDirs _ _

theorem heapFree_dynestySave (ck : Option Text) : HeapFree (dynestySave ck) := by
  cases ck
  · exact heapFree_pure _
  · exact heapFree_write _ _

theorem heapFree_multinestClean (d : Option Text) : HeapFree (multinestClean d) := by
  cases d
  · exact heapFree_removeTree _
  · exact heapFree_pure _

theorem heapFree_core (pk : Packages) (a : NsArgs) (s : NsSampler) (c : NsCall) (there : Bool) : HeapFree (coreOf pk a s c there) := by
  cases s with
  | multinest => exact heapFree_bind (heapFree_makeDirs _ _) fun _ => heapFree_bind (heapFree_sample _ _) fun _ => heapFree_bind (heapFree_multinestClean _) fun _ => heapFree_pure _
  | dynestyStatic => exact heapFree_bind (heapFree_make _ _ _ _) fun _ => heapFree_bind (heapFree_dynestyDir _ _) fun _ => heapFree_bind (heapFree_sample _ _) fun _ => heapFree_bind (heapFree_dynestySave _) fun _ => heapFree_pure _
  | dynestyDynamic => exact heapFree_bind (heapFree_make _ _ _ _) fun _ => heapFree_bind (heapFree_dynestyDir _ _) fun _ => heapFree_bind (heapFree_sample _ _) fun _ => heapFree_bind (heapFree_dynestySave _) fun _ => heapFree_pure _
  | ultranest => exact heapFree_bind (heapFree_make _ _ _ _) fun _ => heapFree_sample _ _
  | nautilus => exact heapFree_bind (heapFree_make _ _ _ _) fun _ => heapFree_sample _ _

/-- A result with another heap. -/
def withHeap {α : Type} (r : Except PyErr α × NsWorld) (H : List Kwargs) : Except PyErr α × NsWorld := (r.1, { r.2 with heap := H })

theorem heapFree_at {α : Type} {m : NsM α} (hm : HeapFree m) {w W : NsWorld} (hfs : W.fs = w.fs) (hc : W.calls = w.calls) : m W = withHeap (m w) W.heap := by
  have := hm w W.heap
  rw [← hfs, ← hc] at this
  exact this

theorem dir_get {β : Type} (ck : Option Text) (there : Bool) (i : Nat) (f : Kwargs → NsM β) (W : NsWorld) :
    (dynestyDir ck there >>= fun _ => nsGet i >>= f) W = (dynestyDir ck there >>= fun _ => f (W.at i)) W := by
  rw [nsm_bind, nsm_bind]
  unfold dynestyDir
  rcases ck with _ | p
  · rfl
  · simp only
    split_ifs
    · rfl
    · unfold nsMakeDirs
      rcases makeDirs _ _ _ _ with e | u
      · rfl
      · rfl

/-- What is done after the dynesty sampler is made. -/
def dynestyTail (pk : Packages) (a : NsArgs) (c : NsCall) (there : Bool) : NsM (List (List Fl) × NsEvidence) := do
  dynestyDir (checkpoint a) there
  let res ← nsSample pk c
  dynestySave (checkpoint a)
  pure res

theorem heapFree_tail (pk : Packages) (a : NsArgs) (c : NsCall) (there : Bool) : HeapFree (dynestyTail pk a c there) :=
  heapFree_bind (heapFree_dynestyDir _ _) fun _ => heapFree_bind (heapFree_sample _ _) fun _ => heapFree_bind (heapFree_dynestySave _) fun _ => heapFree_pure _

/-- The checkpoint file exists. -/
def dynThere (a : NsArgs) (w : NsWorld) : Bool := (checkpoint a).any (fsExists w.fs)

theorem dynesty_eq (pk : Packages) (a : NsArgs) (s : NsSampler) (hs : s = .dynestyStatic ∨ s = .dynestyDynamic) (w : NsWorld) (hin : pk.installed s = true) (hv : a.Valid w) (hap : a.Apart w)
    (hno : ∀ k ∈ reserved s, Dict.has (content w a.run_kwargs) k = false) :
    ∃ H, runDynesty pk s a.outdir a.proceed a.sampler_kwargs a.run_kwargs w = withHeap (coreOf pk a s (expectedCall s a w) (dynThere a w) w) H ∧
      (content w a.run_kwargs = [] → ∀ n, n < w.heap.length → H[n]? = w.heap[n]?) := by
  obtain ⟨i, j, W, h1, h2, hij, hi, hj, ai, aj, hfs, hcalls, ⟨ext, hext⟩, hil, _⟩ :=
    orEmpty_two a.run_kwargs a.sampler_kwargs w (fun i h => hv i (.inr h)) (fun i h => hv i (.inl h)) (fun i h h' => hap i h' h)
  have hres : reserved s = ["resume".toList, "checkpoint_file".toList] := by rcases hs with rfl | rfl <;> rfl
  have r1 : Dict.has (content w a.run_kwargs) "resume".toList = false := hno _ (by rw [hres]; simp)
  have r2 : Dict.has (content w a.run_kwargs) "checkpoint_file".toList = false := hno _ (by rw [hres]; simp)
  have hcore : ∀ c there, coreOf pk a s c there = (nsMake pk c.sampler c.restore c.init >>= fun _ => dynestyTail pk a c there) := by
    rcases hs with rfl | rfl <;> exact fun _ _ => rfl
  let run0 : Kwargs := withPath (Dict.set (content w a.run_kwargs) "resume".toList (.flag a.proceed)) "checkpoint_file" (checkpoint a)
  have hexp : expectedCall s a w = if a.proceed && dynThere a w then { sampler := s, restore := checkpoint a, init := [], run := run0 }
      else { sampler := s, restore := none, init := content w a.sampler_kwargs, run := if a.proceed && (checkpoint a).isSome then Dict.set run0 "resume".toList (.flag false) else run0 } := by
    rcases hs with rfl | rfl <;> rfl
  obtain ⟨W2, e2, W2fs, W2calls, W2i, W2j, W2len, W2pre⟩ : ∃ W2, nsPutPath i "checkpoint_file" a.outdir "sampler.save" (setAt W i (Dict.set (content w a.run_kwargs) "resume".toList (.flag a.proceed))) = (.ok (), W2) ∧
      W2.fs = w.fs ∧ W2.calls = w.calls ∧ W2.at i = run0 ∧ W2.at j = content w a.sampler_kwargs ∧ i < W2.heap.length ∧ (content w a.run_kwargs = [] → SamePrefix w W2) := by
    have hp1 : content w a.run_kwargs = [] → SamePrefix w (setAt W i (Dict.set (content w a.run_kwargs) "resume".toList (.flag a.proceed))) := fun he => samePrefix_setAt (samePrefix_append hext) (hil he) _
    show ∃ W2 : NsWorld, _ ∧ _ ∧ _ ∧ W2.at i = withPath _ _ (checkpoint a) ∧ _
    unfold checkpoint
    rcases hd : a.outdir with _ | d
    · exact ⟨_, rfl, hfs, hcalls, setAt_at hi _, (setAt_at_ne hij _).trans aj, by rw [setAt_length]; exact hi, hp1⟩
    · refine ⟨_, put_eq _ _ _ _, hfs, hcalls, ?_, (setAt_at_ne hij _).trans ((setAt_at_ne hij _).trans aj), by rw [setAt_length, setAt_length]; exact hi, fun he => samePrefix_setAt (hp1 he) (hil he) _⟩
      rw [setAt_at (by rw [setAt_length]; exact hi), setAt_at hi]
      rfl
  have hck : pathValue run0 "checkpoint_file" = checkpoint a := by
    show pathValue (withPath _ _ (checkpoint a)) _ = _
    rcases checkpoint a with _ | p
    · refine pathValue_absent ?_
      show Dict.has (Dict.set _ _ _) _ = false
      rw [kwargs_has_set_ne (by decide)]
      exact r2
    · exact pathValue_set
  have hth : nsThere (checkpoint a) W2 = (.ok (dynThere a w), W2) := by
    unfold nsThere dynThere
    rcases checkpoint a with _ | p
    · rfl
    · simp only [Option.any_some]
      rw [W2fs]
  have key : ∀ (made : Option Text × Kwargs) (W3 : NsWorld), (dynestyDir (checkpoint a) (dynThere a w) >>= fun _ => nsGet i >>= fun run => nsSample pk { sampler := s, restore := made.1, init := made.2, run := run } >>= fun res =>
      dynestySave (checkpoint a) >>= fun _ => pure res) W3 = dynestyTail pk a { sampler := s, restore := made.1, init := made.2, run := W3.at i } (dynThere a w) W3 := by
    intro made W3
    exact dir_get _ _ _ _ _
  have hrun : runDynesty pk s a.outdir a.proceed a.sampler_kwargs a.run_kwargs w =
      (dynestyMake pk s a.proceed j i (checkpoint a) (dynThere a w) >>= fun made => (dynestyDir (checkpoint a) (dynThere a w) >>= fun _ => nsGet i >>= fun run => nsSample pk { sampler := s, restore := made.1, init := made.2, run := run } >>= fun res =>
      dynestySave (checkpoint a) >>= fun _ => pure res)) W2 := by
    unfold runDynesty
    rw [hin]
    rw [nsm_of_ok (raiseIf_pass _ _), nsm_of_ok h1, nsm_of_ok h2, nsm_of_ok (reject_pass (by rw [ai]; exact r1)), nsm_of_ok (put_eq _ _ _ _), ai,
      nsm_of_ok (reject_pass (by rw [setAt_at hi, kwargs_has_set_ne (by decide)]; exact r2)), nsm_of_ok e2, nsm_of_ok (get_eq _ _), W2i, hck, nsm_of_ok hth]
  rw [hrun, hcore, hexp]
  have hpre : content w a.run_kwargs = [] → ∀ n, n < w.heap.length → W2.heap[n]? = w.heap[n]? := W2pre
  unfold dynestyMake
  by_cases hp : (a.proceed && dynThere a w) = true
  · rw [if_pos hp, if_pos hp]
    refine ⟨W2.heap, ?_, hpre⟩
    rw [nsm_bind, nsm_bind]
    have hm := heapFree_at (heapFree_make pk s (checkpoint a) []) W2fs W2calls
    rw [hm]
    show _ = withHeap ((nsMake pk s (checkpoint a) [] >>= _) w) _
    rw [nsm_bind]
    rcases hmw : nsMake pk s (checkpoint a) [] w with ⟨r, w1⟩
    rcases r with e | u
    · rfl
    · show ((dynestyDir _ _ >>= _) : NsM _) { w1 with heap := W2.heap } = withHeap (dynestyTail pk a _ _ w1) W2.heap
      rw [key]
      rw [show NsWorld.at { w1 with heap := W2.heap } i = run0 from W2i]
      exact heapFree_at (heapFree_tail pk a _ _) (w := w1) (W := { w1 with heap := W2.heap }) rfl rfl
  · rw [if_neg hp, if_neg hp]
    rw [nsm_bind, nsm_of_ok (get_eq _ _), W2j, nsm_bind]
    have hm := heapFree_at (heapFree_make pk s none (content w a.sampler_kwargs)) W2fs W2calls
    rw [hm]
    rcases hmw : nsMake pk s none (content w a.sampler_kwargs) w with ⟨r, w1⟩
    rcases r with e | u
    · refine ⟨W2.heap, ?_, hpre⟩
      show _ = withHeap ((nsMake pk s none (content w a.sampler_kwargs) >>= _) w) _
      rw [nsm_bind, hmw]
      rfl
    · by_cases hc : (a.proceed && (checkpoint a).isSome) = true
      · refine ⟨(setAt W2 i (Dict.set run0 "resume".toList (.flag false))).heap, ?_, fun he => samePrefix_setAt (W2pre he) (hil he) _⟩
        show _ = withHeap ((nsMake pk s none (content w a.sampler_kwargs) >>= _) w) _
        rw [nsm_bind, hmw]
        simp only [withHeap, if_pos hc]
        rw [nsm_of_ok (put_eq _ _ _ _)]
        show ((dynestyDir _ _ >>= _) : NsM _) (setAt { w1 with heap := W2.heap } i (Dict.set (W2.at i) "resume".toList (.flag false))) = withHeap (dynestyTail pk a _ _ w1) _
        rw [key, W2i]
        rw [show (setAt { w1 with heap := W2.heap } i (Dict.set run0 "resume".toList (.flag false))).at i = Dict.set run0 "resume".toList (.flag false) from setAt_at W2len _]
        exact heapFree_at (heapFree_tail pk a _ _) (w := w1) (W := setAt { w1 with heap := W2.heap } i (Dict.set run0 "resume".toList (.flag false))) rfl rfl
      · refine ⟨W2.heap, ?_, hpre⟩
        show _ = withHeap ((nsMake pk s none (content w a.sampler_kwargs) >>= _) w) _
        rw [nsm_bind, hmw]
        simp only [withHeap, if_neg hc]
        show ((dynestyDir _ _ >>= _) : NsM _) { w1 with heap := W2.heap } = withHeap (dynestyTail pk a _ _ w1) W2.heap
        rw [key]
        rw [show NsWorld.at { w1 with heap := W2.heap } i = run0 from W2i]
        exact heapFree_at (heapFree_tail pk a _ _) (w := w1) (W := { w1 with heap := W2.heap }) rfl rfl

/-- What a call does once nothing is wrong with its arguments. -/
theorem start_eq (pk : Packages) (a : NsArgs) (s : NsSampler) (w : NsWorld) (hin : pk.installed s = true) (hv : a.Valid w) (hap : a.Apart w) (hmn : s = .multinest → content w a.sampler_kwargs = [])
    (hno : ∀ k ∈ reserved s, Dict.has (content w (a.target s)) k = false) :
    ∃ H, startOf pk a s w = withHeap (coreOf pk a s (expectedCall s a w) (dynThere a w) w) H ∧ (a.Safe s w → ∀ n, n < w.heap.length → H[n]? = w.heap[n]?) := by
  cases s with
  | ultranest =>
    obtain ⟨W, h1, h2, h3, h4⟩ := ultranest_eq pk a w hin hv hap hno
    exact ⟨W.heap, h1.trans (heapFree_at (heapFree_core _ _ _ _ _) h2 h3), fun hs => h4 hs.1⟩
  | nautilus =>
    obtain ⟨W, h1, h2, h3, h4⟩ := nautilus_eq pk a w hin hv hap hno
    exact ⟨W.heap, h1.trans (heapFree_at (heapFree_core _ _ _ _ _) h2 h3), h4⟩
  | multinest =>
    obtain ⟨W, h1, h2, h3, h4⟩ := multinest_eq pk a w hin hv (hmn rfl) hno
    exact ⟨W.heap, h1.trans (heapFree_at (heapFree_core _ _ _ _ _) h2 h3), fun hs => h4 hs.1⟩
  | dynestyStatic =>
    obtain ⟨H, h1, h2⟩ := dynesty_eq pk a _ (.inl rfl) w hin hv hap hno
    exact ⟨H, h1, fun hs => h2 hs.1⟩
  | dynestyDynamic =>
    obtain ⟨H, h1, h2⟩ := dynesty_eq pk a _ (.inr rfl) w hin hv hap hno
    exact ⟨H, h1, fun hs => h2 hs.1⟩

end Radvel
