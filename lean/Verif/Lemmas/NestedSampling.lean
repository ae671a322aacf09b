import Verif.Spec.NestedSampling
import Verif.Lemmas.Dict
import Mathlib.Tactic.SplitIfs
import Mathlib.Tactic.ByContra

/-! Helper lemmas for nested sampling. -/

namespace Radvel

theorem nsm_bind {α β : Type} (m : NsM α) (f : α → NsM β) (w : NsWorld) :
    (m >>= f) w = match m w with | (.ok a, w') => f a w' | (.error e, w') => (.error e, w') := rfl

theorem nsm_ok {α β : Type} {m : NsM α} {f : α → NsM β} {w : NsWorld} {b : β} {w' : NsWorld} (h : (m >>= f) w = (.ok b, w')) : ∃ a w1, m w = (.ok a, w1) ∧ f a w1 = (.ok b, w') := by
  rw [nsm_bind] at h
  rcases hm : m w with ⟨r, w1⟩
  rw [hm] at h
  rcases r with e | a
  · simp at h
  · exact ⟨a, w1, rfl, h⟩

theorem nsm_of_ok {α β : Type} {m : NsM α} {f : α → NsM β} {w w1 : NsWorld} {a : α} (h : m w = (.ok a, w1)) : (m >>= f) w = f a w1 := by
  rw [nsm_bind, h]

theorem nsm_of_error {α β : Type} {m : NsM α} {f : α → NsM β} {w w1 : NsWorld} {e : PyErr} (h : m w = (.error e, w1)) : (m >>= f) w = (.error e, w1) := by
  rw [nsm_bind, h]

/-- The sampler chosen for a name. -/
def startOf (pk : Packages) (a : NsArgs) : NsSampler → NsM (List (List Fl) × NsEvidence)
  | .ultranest => runUltranest pk a.outdir a.proceed a.sampler_kwargs a.run_kwargs
  | .dynestyStatic => runDynesty pk .dynestyStatic a.outdir a.proceed a.sampler_kwargs a.run_kwargs
  | .dynestyDynamic => runDynesty pk .dynestyDynamic a.outdir a.proceed a.sampler_kwargs a.run_kwargs
  | .multinest => startMultinest pk a
  | .nautilus => runNautilus pk a.outdir a.proceed a.sampler_kwargs a.run_kwargs

theorem startSampler_of {a : NsArgs} {s : NsSampler} (h : SamplerName a.sampler s) (pk : Packages) : startSampler pk a = startOf pk a s := by
  unfold startSampler
  cases s with
  | ultranest => unfold SamplerName at h; simp only at h; rw [if_pos h]; rfl
  | dynestyStatic => unfold SamplerName at h; simp only at h; rw [h, if_neg (by decide), if_pos rfl]; rfl
  | dynestyDynamic => unfold SamplerName at h; simp only at h; rw [h, if_neg (by decide), if_neg (by decide), if_pos rfl]; rfl
  | multinest =>
    unfold SamplerName at h
    simp only at h
    rcases h with h | h
    · rw [h, if_neg (by decide), if_neg (by decide), if_neg (by decide), if_pos (by decide)]; rfl
    · rw [h, if_neg (by decide), if_neg (by decide), if_neg (by decide), if_pos (by decide)]; rfl
  | nautilus => unfold SamplerName at h; simp only at h; rw [h, if_neg (by decide), if_neg (by decide), if_neg (by decide), if_neg (by decide), if_pos rfl]; rfl

theorem startSampler_unknown {a : NsArgs} (h : ∀ s, ¬ SamplerName a.sampler s) (pk : Packages) : startSampler pk a = nsRaise .valueError := by
  unfold startSampler
  have h1 := h .ultranest
  have h2 := h .dynestyStatic
  have h3 := h .dynestyDynamic
  have h4 := h .multinest
  have h5 := h .nautilus
  simp only [SamplerName] at h1 h2 h3 h4 h5
  rw [if_neg h1, if_neg h2, if_neg h3, if_neg h4, if_neg h5]

/-- The dictionary at a reference. -/
def NsWorld.at (w : NsWorld) (i : Nat) : Kwargs := w.heap[i]?.getD []

theorem orEmpty_spec (r : Option Nat) (w : NsWorld) :
    ∃ i ext, nsOrEmpty r w = (.ok i, { w with heap := w.heap ++ ext }) ∧ (content w r = [] → i = w.heap.length ∧ ext = [[]]) ∧ (content w r ≠ [] → r = some i ∧ ext = []) := by
  unfold nsOrEmpty
  rcases r with _ | i
  · exact ⟨_, [[]], rfl, fun _ => ⟨rfl, rfl⟩, fun h => absurd rfl h⟩
  · by_cases h : w.heap[i]?.getD [] = []
    · refine ⟨w.heap.length, [[]], ?_, fun _ => ⟨rfl, rfl⟩, fun h' => absurd h h'⟩
      simp only [h, if_pos]
    · refine ⟨i, [], ?_, fun h' => absurd h' h, fun _ => ⟨rfl, rfl⟩⟩
      simp only [if_neg h, List.append_nil]

theorem at_append {w : NsWorld} {ext : List Kwargs} {i : Nat} (h : w.at i ≠ []) : NsWorld.at { w with heap := w.heap ++ ext } i = w.at i := by
  unfold NsWorld.at at *
  have hi : i < w.heap.length := by
    by_contra hge
    exact h (by rw [List.getElem?_eq_none (by omega)]; rfl)
  simp only [List.getElem?_append_left hi]

/-- A step that keeps keys of dictionaries. -/
def KeepsKeys {α : Type} (m : NsM α) : Prop := ∀ w i k, Dict.has (w.at i) k = true → Dict.has ((m w).2.at i) k = true

theorem keeps_bind {α β : Type} {m : NsM α} {f : α → NsM β} (hm : KeepsKeys m) (hf : ∀ a, KeepsKeys (f a)) : KeepsKeys (m >>= f) := by
  intro w i k h
  rw [nsm_bind]
  have h1 := hm w i k h
  rcases hw : m w with ⟨r, w1⟩
  rw [hw] at h1
  rcases r with e | a
  · exact h1
  · exact hf a w1 i k h1

theorem keeps_pure {α : Type} (a : α) : KeepsKeys (pure a : NsM α) := fun _ _ _ h => h
theorem keeps_raise {α : Type} (e : PyErr) : KeepsKeys (nsRaise e : NsM α) := fun _ _ _ h => h
theorem keeps_lift {α : Type} (x : Except PyErr α) : KeepsKeys (nsLift x) := fun _ _ _ h => h
theorem keeps_raiseIf (b : Bool) (e : PyErr) : KeepsKeys (nsRaiseIf b e) := by intro w i k h; unfold nsRaiseIf; split <;> exact h
theorem keeps_get (r : Nat) : KeepsKeys (nsGet r) := fun _ _ _ h => h
theorem keeps_reject (r : Nat) (key : String) : KeepsKeys (nsReject r key) := by intro w i k h; unfold nsReject; split <;> exact h
theorem keeps_there (ck : Option Text) : KeepsKeys (nsThere ck) := by intro w i k h; unfold nsThere; split <;> exact h
theorem keeps_nonEmpty (r : Option Nat) : KeepsKeys (nsNonEmpty r) := by intro w i k h; unfold nsNonEmpty; split <;> exact h
theorem keeps_makeDirs (p : Text) (ok : Bool) : KeepsKeys (nsMakeDirs p ok) := by intro w i k h; unfold nsMakeDirs; split <;> exact h
theorem keeps_removeTree (p : Text) : KeepsKeys (nsRemoveTree p) := by intro w i k h; unfold nsRemoveTree; split <;> exact h
theorem keeps_write (p : Text) (c : FsNode) : KeepsKeys (nsWrite p c) := by intro w i k h; unfold nsWrite; split_ifs <;> exact h
theorem keeps_make (pk : Packages) (s : NsSampler) (r : Option Text) (init : Kwargs) : KeepsKeys (nsMake pk s r init) := fun _ _ _ h => h
theorem keeps_sample (pk : Packages) (c : NsCall) : KeepsKeys (nsSample pk c) := fun _ _ _ h => h
theorem keeps_check (a : NsArgs) : KeepsKeys (checkResults a) := by intro w i k h; unfold checkResults; split; exact h; split <;> exact h
theorem keeps_ite {α : Type} (p : Prop) [Decidable p] {m n : NsM α} (hm : KeepsKeys m) (hn : KeepsKeys n) : KeepsKeys (if p then m else n) := by
  split_ifs
  · exact hm
  · exact hn

theorem at_put (w : NsWorld) (r : Nat) (k : String) (v : NsValue) (i : Nat) :
    ((nsPut r k v w).2).at i = if i = r ∧ r < w.heap.length then Dict.set (w.at i) k.toList v else w.at i := by
  unfold nsPut NsWorld.at
  simp only [List.getElem?_set]
  by_cases h : i = r
  · subst h
    by_cases hl : i < w.heap.length
    · simp [hl]
    · rw [if_pos rfl, if_neg hl, if_neg (by simp [hl]), List.getElem?_eq_none (by omega)]
  · rw [if_neg (fun h' => h h'.symm), if_neg (fun h' => h h'.1)]

theorem keeps_put (r : Nat) (key : String) (v : NsValue) : KeepsKeys (nsPut r key v) := by
  intro w i k h
  rw [at_put]
  split_ifs
  · rw [Dict.has_iff] at *
    rw [Dict.mem_keys_set]
    exact .inr h
  · exact h

theorem has_at_nonempty {w : NsWorld} {i : Nat} {k : Text} (h : Dict.has (w.at i) k = true) : w.at i ≠ [] := by
  intro he
  rw [he] at h
  simp [Dict.has] at h

theorem keeps_orEmpty (r : Option Nat) : KeepsKeys (nsOrEmpty r) := by
  intro w i k h
  obtain ⟨j, ext, h1, _⟩ := orEmpty_spec r w
  rw [h1]
  show Dict.has (NsWorld.at _ i) k = true
  rw [at_append (has_at_nonempty h)]
  exact h

theorem keeps_setDefault (r : Nat) (key : String) (v : NsValue) : KeepsKeys (nsSetDefault r key v) := by
  intro w i k h
  unfold nsSetDefault
  split
  · exact h
  · exact keeps_put r key v w i k h

theorem keeps_putPath (r : Nat) (key : String) (d : Option Text) (name : String) : KeepsKeys (nsPutPath r key d name) := by
  cases d
  · exact keeps_pure _
  · exact keeps_put _ _ _

theorem keeps_dynestyMake (pk : Packages) (s : NsSampler) (proceed : Bool) (sk rk : Nat) (ck : Option Text) (there : Bool) : KeepsKeys (dynestyMake pk s proceed sk rk ck there) := by
  refine keeps_ite _ (keeps_bind (keeps_make _ _ _ _) fun _ => keeps_pure _) (keeps_bind (keeps_get _) fun _ => keeps_bind (keeps_make _ _ _ _) fun _ => ?_)
  exact keeps_ite _ (keeps_bind (keeps_put _ _ _) fun _ => keeps_pure _) (keeps_pure _)

theorem keeps_dynestyDir (ck : Option Text) (there : Bool) : KeepsKeys (dynestyDir ck there) := by
  cases ck
  · exact keeps_pure _
  · exact keeps_ite _ (keeps_pure _) (keeps_makeDirs _ _)

theorem keeps_dynestySave (ck : Option Text) : KeepsKeys (dynestySave ck) := by
  cases ck
  · exact keeps_pure _
  · exact keeps_write _ _

theorem keeps_multinestClean (d : Option Text) : KeepsKeys (multinestClean d) := by
  cases d
  · exact keeps_removeTree _
  · exact keeps_pure _

theorem keeps_save (a : NsArgs) (t : NsTable) (ev : NsEvidence) : KeepsKeys (saveResults a t ev) := by
  unfold saveResults
  split
  · exact keeps_pure _
  · exact keeps_write _ _

end Radvel

namespace Radvel

/-- A step that leaves files and calls alone. -/
def Quiet {α : Type} (m : NsM α) : Prop := ∀ w, (m w).2.fs = w.fs ∧ (m w).2.calls = w.calls

theorem quiet_lift {α : Type} (x : Except PyErr α) : Quiet (nsLift x) := fun _ => ⟨rfl, rfl⟩
theorem quiet_raiseIf (b : Bool) (e : PyErr) : Quiet (nsRaiseIf b e) := by intro w; unfold nsRaiseIf; split <;> exact ⟨rfl, rfl⟩
theorem quiet_get (r : Nat) : Quiet (nsGet r) := fun _ => ⟨rfl, rfl⟩
theorem quiet_reject (r : Nat) (key : String) : Quiet (nsReject r key) := by intro w; unfold nsReject; split <;> exact ⟨rfl, rfl⟩
theorem quiet_put (r : Nat) (key : String) (v : NsValue) : Quiet (nsPut r key v) := fun _ => ⟨rfl, rfl⟩
theorem quiet_nonEmpty (r : Option Nat) : Quiet (nsNonEmpty r) := by intro w; unfold nsNonEmpty; split <;> exact ⟨rfl, rfl⟩
theorem quiet_check (a : NsArgs) : Quiet (checkResults a) := by intro w; unfold checkResults; split; exact ⟨rfl, rfl⟩; split <;> exact ⟨rfl, rfl⟩
theorem quiet_orEmpty (r : Option Nat) : Quiet (nsOrEmpty r) := by
  intro w
  obtain ⟨j, ext, h1, _⟩ := orEmpty_spec r w
  rw [h1]
  exact ⟨rfl, rfl⟩
theorem quiet_setDefault (r : Nat) (key : String) (v : NsValue) : Quiet (nsSetDefault r key v) := by intro w; unfold nsSetDefault; split <;> exact ⟨rfl, rfl⟩
theorem quiet_putPath (r : Nat) (key : String) (d : Option Text) (name : String) : Quiet (nsPutPath r key d name) := by
  cases d <;> exact fun _ => ⟨rfl, rfl⟩

/-- A step that raises, with one of the errors `E`, and leaves files and calls alone. -/
def Doomed {α : Type} (E : PyErr → Prop) (m : NsM α) (w : NsWorld) : Prop := ∃ e w', m w = (.error e, w') ∧ E e ∧ w'.fs = w.fs ∧ w'.calls = w.calls

theorem doomed_bind {α β : Type} {E : PyErr → Prop} {m : NsM α} {f : α → NsM β} {w : NsWorld} (hq : Quiet m) (he : ∀ e w', m w = (.error e, w') → E e)
    (hf : ∀ a w', m w = (.ok a, w') → Doomed E (f a) w') : Doomed E (m >>= f) w := by
  have hq := hq w
  rcases hm : m w with ⟨r, w1⟩
  rw [hm] at hq
  rcases r with e | a
  · exact ⟨e, w1, nsm_of_error hm, he e w1 hm, hq⟩
  · obtain ⟨e, w2, h1, h2, h3, h4⟩ := hf a w1 hm
    exact ⟨e, w2, (nsm_of_ok hm).trans h1, h2, h3.trans hq.1, h4.trans hq.2⟩

theorem doomed_first {α β : Type} {E : PyErr → Prop} {m : NsM α} {f : α → NsM β} {w : NsWorld} (h : Doomed E m w) : Doomed E (m >>= f) w := by
  obtain ⟨e, w', h1, h2⟩ := h
  exact ⟨e, w', nsm_of_error h1, h2⟩

theorem doomed_reject {E : PyErr → Prop} (hE : E .valueError) {r : Nat} {key : String} {w : NsWorld} (h : Dict.has (w.at r) key.toList = true) : Doomed E (nsReject r key) w := by
  refine ⟨.valueError, w, ?_, hE, rfl, rfl⟩
  unfold nsReject
  unfold NsWorld.at at h
  rw [if_pos h]

theorem reject_error {r : Nat} {key : String} {w w' : NsWorld} {e : PyErr} (h : nsReject r key w = (.error e, w')) : e = .valueError := by
  unfold nsReject at h
  split at h
  · cases h; rfl
  · cases h

theorem reject_ok {r : Nat} {key : String} {w w' : NsWorld} {u : Unit} (h : nsReject r key w = (.ok u, w')) : w' = w ∧ Dict.has (w.at r) key.toList = false := by
  unfold nsReject at h
  split at h
  · cases h
  · rename_i hh
    cases h
    exact ⟨rfl, by simpa [NsWorld.at] using hh⟩

theorem orEmpty_error {r : Option Nat} {w w' : NsWorld} {e : PyErr} (h : nsOrEmpty r w = (.error e, w')) : False := by
  obtain ⟨j, ext, h1, _⟩ := orEmpty_spec r w
  rw [h1] at h
  cases h

theorem keeps_ok {α : Type} {m : NsM α} (hm : KeepsKeys m) {w w' : NsWorld} {r : Except PyErr α} (h : m w = (r, w')) {i : Nat} {k : Text} (hk : Dict.has (w.at i) k = true) : Dict.has (w'.at i) k = true := by
  have := hm w i k hk
  rw [h] at this
  exact this

theorem raiseIf_error {b : Bool} {e e' : PyErr} {w w' : NsWorld} (h : nsRaiseIf b e w = (.error e', w')) : e' = e ∧ b = true := by
  unfold nsRaiseIf at h
  split at h
  · cases h; exact ⟨rfl, by assumption⟩
  · cases h

theorem raiseIf_ok {b : Bool} {e : PyErr} {w w' : NsWorld} {u : Unit} (h : nsRaiseIf b e w = (.ok u, w')) : b = false ∧ w' = w := by
  unfold nsRaiseIf at h
  split at h
  · cases h
  · cases h
    exact ⟨by simpa using ‹¬ b = true›, rfl⟩

/-- After `kwargs or {}` the reference is the argument if that is not empty. -/
theorem orEmpty_ok {r : Option Nat} {w w' : NsWorld} {i j : Nat} (hr : r = some i) {k : Text} (hk : Dict.has (w.at i) k = true) (h : nsOrEmpty r w = (.ok j, w')) : j = i ∧ w' = w := by
  obtain ⟨j', ext, h1, _, h3⟩ := orEmpty_spec r w
  rw [h1] at h
  cases h
  subst hr
  obtain ⟨h4, h5⟩ := h3 (has_at_nonempty hk)
  cases h4
  subst h5
  exact ⟨rfl, by rw [List.append_nil]⟩

theorem orEmpty_ok_nonempty {r : Option Nat} {w w' : NsWorld} {j : Nat} (hc : content w r ≠ []) (h : nsOrEmpty r w = (.ok j, w')) : r = some j ∧ w' = w := by
  obtain ⟨j', ext, h1, _, h3⟩ := orEmpty_spec r w
  rw [h1] at h
  cases h
  obtain ⟨h4, h5⟩ := h3 hc
  subst h5
  exact ⟨h4, by rw [List.append_nil]⟩

theorem put_error {r : Nat} {key : String} {v : NsValue} {w w' : NsWorld} {e : PyErr} (h : nsPut r key v w = (.error e, w')) : False := by
  cases h

theorem putPath_error {r : Nat} {key : String} {d : Option Text} {name : String} {w w' : NsWorld} {e : PyErr} (h : nsPutPath r key d name w = (.error e, w')) : False := by
  cases d <;> cases h

theorem setDefault_error {r : Nat} {key : String} {v : NsValue} {w w' : NsWorld} {e : PyErr} (h : nsSetDefault r key v w = (.error e, w')) : False := by
  unfold nsSetDefault at h
  split at h <;> cases h

/-- Reserved keywords are rejected. -/
theorem doomed_start (pk : Packages) (a : NsArgs) (s : NsSampler) (w : NsWorld) {i : Nat} (hi : a.target s = some i) {k : Text} (hk : k ∈ reserved s) (hh : Dict.has (w.at i) k = true) :
    Doomed (fun e => pk.installed s = true → (s = .multinest → content w a.sampler_kwargs = []) → e = .valueError) (startOf pk a s) w := by
  have hdyn : ∀ s : NsSampler, a.run_kwargs = some i → k ∈ ["resume".toList, "checkpoint_file".toList] →
      Doomed (fun e => pk.installed s = true → e = .valueError) (runDynesty pk s a.outdir a.proceed a.sampler_kwargs a.run_kwargs) w := by
    intro s hi hk
    refine doomed_bind (quiet_raiseIf _ _) (fun e w' h => ?_) fun _ w1 h1 => ?_
    · intro hin
      have := (raiseIf_error h).2
      rw [hin] at this
      cases this
    obtain ⟨_, rfl⟩ := raiseIf_ok h1
    refine doomed_bind (quiet_orEmpty _) (fun e w' h => (orEmpty_error h).elim) fun j w2 h2 => ?_
    obtain ⟨rfl, rfl⟩ := orEmpty_ok hi hh h2
    refine doomed_bind (quiet_orEmpty _) (fun e w' h => (orEmpty_error h).elim) fun j w3 h3 => ?_
    replace hh := keeps_ok (keeps_orEmpty _) h3 hh
    simp only [List.mem_cons, List.not_mem_nil, or_false] at hk
    rcases hk with rfl | rfl
    · exact doomed_first (doomed_reject (fun _ => rfl) hh)
    · refine doomed_bind (quiet_reject _ _) (fun e w' h => fun _ => reject_error h) fun _ w4 h4 => ?_
      replace hh := keeps_ok (keeps_reject _ _) h4 hh
      refine doomed_bind (quiet_put _ _ _) (fun e w' h => (put_error h).elim) fun _ w5 h5 => ?_
      replace hh := keeps_ok (keeps_put _ _ _) h5 hh
      exact doomed_first (doomed_reject (fun _ => rfl) hh)
  have weaken : ∀ {s : NsSampler} {m : NsM (List (List Fl) × NsEvidence)}, Doomed (fun e => pk.installed s = true → e = .valueError) m w →
      Doomed (fun e => pk.installed s = true → (s = .multinest → content w a.sampler_kwargs = []) → e = .valueError) m w :=
    fun ⟨e, w', h1, h2, h3⟩ => ⟨e, w', h1, fun h _ => h2 h, h3⟩
  cases s with
  | dynestyStatic => exact weaken (hdyn _ hi hk)
  | dynestyDynamic => exact weaken (hdyn _ hi hk)
  | ultranest =>
    refine weaken ?_
    change a.sampler_kwargs = some i at hi
    refine doomed_bind (quiet_raiseIf _ _) (fun e w' h => ?_) fun _ w1 h1 => ?_
    · intro hin
      have := (raiseIf_error h).2
      rw [hin] at this
      cases this
    obtain ⟨_, rfl⟩ := raiseIf_ok h1
    refine doomed_bind (quiet_orEmpty _) (fun e w' h => (orEmpty_error h).elim) fun j w2 h2 => ?_
    replace hh := keeps_ok (keeps_orEmpty _) h2 hh
    refine doomed_bind (quiet_orEmpty _) (fun e w' h => (orEmpty_error h).elim) fun j w3 h3 => ?_
    obtain ⟨rfl, rfl⟩ := orEmpty_ok hi hh h3
    simp only [reserved, List.mem_cons, List.not_mem_nil, or_false] at hk
    rcases hk with rfl | rfl
    · exact doomed_first (doomed_reject (fun _ => rfl) hh)
    · refine doomed_bind (quiet_reject _ _) (fun e w' h => fun _ => reject_error h) fun _ w4 h4 => ?_
      replace hh := keeps_ok (keeps_reject _ _) h4 hh
      exact doomed_first (doomed_reject (fun _ => rfl) hh)
  | nautilus =>
    refine weaken ?_
    change a.sampler_kwargs = some i at hi
    refine doomed_bind (quiet_raiseIf _ _) (fun e w' h => ?_) fun _ w1 h1 => ?_
    · intro hin
      have := (raiseIf_error h).2
      rw [hin] at this
      cases this
    obtain ⟨_, rfl⟩ := raiseIf_ok h1
    refine doomed_bind (quiet_orEmpty _) (fun e w' h => (orEmpty_error h).elim) fun j w2 h2 => ?_
    obtain ⟨rfl, rfl⟩ := orEmpty_ok hi hh h2
    refine doomed_bind (quiet_orEmpty _) (fun e w' h => (orEmpty_error h).elim) fun j2 w3 h3 => ?_
    replace hh := keeps_ok (keeps_orEmpty _) h3 hh
    refine doomed_bind (quiet_setDefault _ _ _) (fun e w' h => (setDefault_error h).elim) fun _ w4 h4 => ?_
    replace hh := keeps_ok (keeps_setDefault _ _ _) h4 hh
    simp only [reserved, List.mem_cons, List.not_mem_nil, or_false] at hk
    rcases hk with rfl | rfl
    · exact doomed_first (doomed_reject (fun _ => rfl) hh)
    · refine doomed_bind (quiet_reject _ _) (fun e w' h => fun _ => reject_error h) fun _ w5 h5 => ?_
      replace hh := keeps_ok (keeps_reject _ _) h5 hh
      refine doomed_bind (quiet_putPath _ _ _ _) (fun e w' h => (putPath_error h).elim) fun _ w6 h6 => ?_
      replace hh := keeps_ok (keeps_putPath _ _ _ _) h6 hh
      exact doomed_first (doomed_reject (fun _ => rfl) hh)
  | multinest =>
    change a.run_kwargs = some i at hi
    refine doomed_bind (quiet_nonEmpty _) (fun e w' h => ?_) fun b w1 h1 => ?_
    · unfold nsNonEmpty at h; split at h <;> cases h
    have hb : w1 = w ∧ (content w a.sampler_kwargs = [] → b = false) := by
      unfold nsNonEmpty at h1
      split at h1
      · cases h1; exact ⟨rfl, fun _ => rfl⟩
      · rename_i j hj
        cases h1
        refine ⟨rfl, fun h => ?_⟩
        rw [hj] at h
        change w.heap[j]?.getD [] = [] at h
        rw [h]
        rfl
    obtain ⟨rfl, hb⟩ := hb
    refine doomed_bind (quiet_raiseIf _ _) (fun e w' h => ?_) fun _ w2 h2 => ?_
    · intro _ hsk
      have := (raiseIf_error h).2
      rw [hb (hsk rfl)] at this
      cases this
    obtain ⟨_, rfl⟩ := raiseIf_ok h2
    refine doomed_bind (quiet_raiseIf _ _) (fun e w' h => ?_) fun _ w3 h3 => ?_
    · intro hin
      have := (raiseIf_error h).2
      rw [hin] at this
      cases this
    obtain ⟨_, rfl⟩ := raiseIf_ok h3
    refine doomed_bind (quiet_orEmpty _) (fun e w' h => (orEmpty_error h).elim) fun j w4 h4 => ?_
    obtain ⟨rfl, rfl⟩ := orEmpty_ok hi hh h4
    simp only [reserved, List.mem_cons, List.not_mem_nil, or_false] at hk
    rcases hk with rfl | rfl
    · exact doomed_first (doomed_reject (fun _ _ => rfl) hh)
    · refine doomed_bind (quiet_reject _ _) (fun e w' h => fun _ _ => reject_error h) fun _ w4 h4 => ?_
      replace hh := keeps_ok (keeps_reject _ _) h4 hh
      refine doomed_bind (quiet_put _ _ _) (fun e w' h => (put_error h).elim) fun _ w5 h5 => ?_
      replace hh := keeps_ok (keeps_put _ _ _) h5 hh
      exact doomed_first (doomed_reject (fun _ _ => rfl) hh)

end Radvel
