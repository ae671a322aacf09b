import Verif.Lemmas.GPEval

/-! A reachable GP likelihood with any data and any rows, for non-vacuity and counterexamples. -/

namespace Radvel
open Real

/-- Hyperparameter names without suffix: `gp_length`, `gp_amp`, ... -/
def stdNames (kind : KernelKind) : List Key := kind.slots.map (fun s => Key.inst .gp (String.ofList (s.drop 2)))

theorem stdNames_facts (kind : KernelKind) : (stdNames kind).Nodup ∧ (stdNames kind).length = kind.slots.length ∧
    (∀ slot ∈ kind.slots, ∃ k ∈ stdNames kind, k.render = slot ∧ kind.takes slot k.render = true) := by
  cases kind <;> decide

theorem foldl_setItem_user (ks : List Key) (hks : ∀ k ∈ ks, ∃ g r, k = .inst g r) (p : Params ℝ) (h : UserParams p) :
    UserParams (ks.foldl (fun (p : Params ℝ) k => p.setItem k { value := 0 }) p) ∧ (ks.foldl (fun (p : Params ℝ) k => p.setItem k { value := 0 }) p).numPlanets = p.numPlanets ∧
      ∀ k, k ∈ ks ∨ k ∈ p.items.keys → k ∈ (ks.foldl (fun (p : Params ℝ) k => p.setItem k { value := 0 }) p).items.keys := by
  induction ks generalizing p with
  | nil => exact ⟨h, rfl, by simp⟩
  | cons a t ih =>
    obtain ⟨h1, h2, h3⟩ := ih (fun k hk => hks k (List.mem_cons_of_mem _ hk)) (p.setItem a { value := 0 })
      (.set p a { value := 0 } h (.inr (.inr (.inr (hks a (by simp))))) (by simp))
    refine ⟨h1, h2, ?_⟩
    intro k hk
    apply h3
    simp only [Params.setItem, Dict.mem_keys_set]
    rcases hk with hk | hk
    · rcases List.mem_cons.1 hk with rfl | hk
      · exact .inr (.inl rfl)
      · exact .inl hk
    · exact .inr (.inr hk)

theorem mapM_lookup_ok (s : VState ℝ) (hn : List Key) (h : ∀ k ∈ hn, k ∈ s.params.items.keys) : ∃ hs, hn.mapM (lookupPar s) = .ok hs := by
  induction hn with
  | nil => exact ⟨[], rfl⟩
  | cons k t ih =>
    obtain ⟨q, hq⟩ := Dict.exists_get?_of_mem _ (h k (by simp))
    obtain ⟨hs, e⟩ := ih (fun k hk => h k (List.mem_cons_of_mem _ hk))
    exact ⟨(k, q.value) :: hs, by rw [List.mapM_cons]; simp only [lookupPar, hq, e, bind, Except.bind, pure, Except.pure]⟩

theorem update_nil_keys (hs : List (Key × ℝ)) (hn : (hs.map Prod.fst).Nodup) : (Dict.update ([] : Dict Key ℝ) hs).length = hs.length := by
  have h1 : (Dict.update ([] : Dict Key ℝ) hs).keys.Nodup := Dict.nodup_keys_update _ _ (by simp [Dict.keys])
  have h2 : ∀ k, k ∈ (Dict.update ([] : Dict Key ℝ) hs).keys ↔ k ∈ hs.map Prod.fst := by
    intro k; rw [Dict.mem_keys_update]; simp [Dict.keys]
  have h3 := (List.perm_ext_iff_of_nodup h1 hn).2 h2
  have := h3.length_eq
  rw [Dict.length_keys, List.length_map] at this
  exact this

/-- On a model without planets: a GP likelihood of any kind, with any data, any names the constructor accepts, and any row for every key. -/
theorem flatGP' (mod : Curve) (kind : KernelKind) (names : List Key) (hinst : ∀ k ∈ names, ∃ g r, k = .inst g r) (f1 : names.Nodup)
    (f2 : names.length = kind.slots.length) (f3 : ∀ slot ∈ kind.slots, ∃ k ∈ names, kind.takes slot k.render = true) (obs : List Obs) (row : Key → Row ℝ) :
    ∃ G g, GPReach mod G g [G.rv] ∧ g.AtData G ∧ g.kernel.cov = none ∧ g.kernel.kind = kind ∧ G.rv.obs = obs ∧ G.rv.suffix = "" ∧ G.hnames = names ∧
      g.st.params.numPlanets = 0 ∧
      ∀ k i, (k ∈ g.st.params.items.keys ∨ k = .dvdt ∨ k = .curv) → g.st.indices.get? k = some i → g.st.rows[i]? = some (row k) := by
  have h0 : UserParams (Params.init (0 : ℝ) 0 .perTpEWK none) := .new _ _ _ _ (by decide)
  obtain ⟨hu, hN, hk⟩ := foldl_setItem_user names hinst _ h0
  obtain ⟨s, h1, _, _, h4, _⟩ := hu.model
  have hb : Built s := .model _ s hu h1
  obtain ⟨s', L, hL, hN'⟩ := RVLike.new_ok hb obs "" [] []
  have hkeys : ∀ k ∈ names, k ∈ s'.params.items.keys := by
    intro k hk'
    exact RVLike.new_keys obs "" [] [] hb hL k (by rw [h4]; exact hk k (.inl hk'))
  obtain ⟨hs, hmap⟩ := mapM_lookup_ok s' names hkeys
  obtain ⟨m1, m2⟩ := mapM_lookup_keys _ _ _ hmap
  have hlen : (Dict.update ([] : Dict Key ℝ) hs).length = kind.slots.length := by
    rw [update_nil_keys hs (by rw [m1]; exact f1), ← f2, ← m1, List.length_map]
  have hall : kind.slots.all (fun slot => ((Dict.update ([] : Dict Key ℝ) hs).foldl kind.assign []).has slot) = true := by
    rw [List.all_eq_true]
    intro slot hslot
    rw [newFold_has]
    right
    obtain ⟨k, hk1, hk2⟩ := f3 slot hslot
    refine ⟨hslot, k, ?_, hk2⟩
    rw [Dict.mem_keys_update]; right
    rw [← m1] at hk1; exact hk1
  obtain ⟨kernel, hker⟩ : ∃ k, Kernel.new kind (Dict.update [] hs) = .ok k := by
    unfold Kernel.new
    simp only
    rw [if_neg (by rw [hlen]; simp), if_pos hall]
    exact ⟨_, rfl⟩
  obtain ⟨G, g, hG⟩ : ∃ G g, GPLike.new s obs names "" kind = .ok (G, g) := by
    unfold GPLike.new
    simp only [hL, hmap, hker]
    exact ⟨_, _, rfl⟩
  have hr : GPReach mod G g ([] ++ [G.rv]) := .new s [] g (.start _ hb) obs names "" kind hG
  obtain ⟨i1, i2, i3, i4, i5, i6, i7, i8⟩ := GPLike.new_inv (.start _ hb) hG
  have hn := i1.built.namesOk
  refine ⟨G, _, .write g _ hr (g.st.names.map row) (by simp [hn.len]), i2, i3, i4, i5, i7, i6, ?_, ?_⟩
  · rw [i8] at hL; cases hL
    show g.st.params.numPlanets = 0
    rw [hN', h4, hN]; rfl
  · intro k i hk hi
    show (g.st.names.map row)[i]? = _
    simp [hn.fwd k i hk hi]

/-- The same with the standard names. -/
theorem flatGP (mod : Curve) (kind : KernelKind) (obs : List Obs) (row : Key → Row ℝ) :
    ∃ G g, GPReach mod G g [G.rv] ∧ g.AtData G ∧ g.kernel.cov = none ∧ g.kernel.kind = kind ∧ G.rv.obs = obs ∧ G.rv.suffix = "" ∧ G.hnames = stdNames kind ∧
      g.st.params.numPlanets = 0 ∧
      ∀ k i, (k ∈ g.st.params.items.keys ∨ k = .dvdt ∨ k = .curv) → g.st.indices.get? k = some i → g.st.rows[i]? = some (row k) := by
  obtain ⟨f1, f2, f3⟩ := stdNames_facts kind
  exact flatGP' mod kind (stdNames kind) (by intro k hk; unfold stdNames at hk; obtain ⟨s, _, rfl⟩ := List.mem_map.1 hk; exact ⟨_, _, rfl⟩) f1 f2
    (fun slot hs => by obtain ⟨k, h1, _, h2⟩ := f3 slot hs; exact ⟨k, h1, h2⟩) obs row

/-- The context of such a likelihood. -/
theorem flatGP_context (drive : Drive) (tb : ℝ) {G : GPLike} {g : GPState} {Ls : List RVLike} (hI : GPInv G g Ls) (hsuf : G.rv.suffix = "") (hn : G.hnames = stdNames g.kernel.kind)
    (hN : g.st.params.numPlanets = 0) (row : Key → Row ℝ)
    (hr : ∀ k i, (k ∈ g.st.params.items.keys ∨ k = .dvdt ∨ k = .curv) → g.st.indices.get? k = some i → g.st.rows[i]? = some (row k)) :
    GPContext (fun s t => modelCall drive tb s none t) G g (fun slot => (row (.inst .gp (String.ofList (slot.toList.drop 2)))).value)
      (row (.inst .gamma "")).value (row (.inst .jit "")).value (fun t => (row .dvdt).value * (t - tb) + (row .curv).value * (t - tb) ^ 2) := by
  have hon := hI.on
  have hb := hI.built
  refine ⟨?_, ⟨_, ?_, rfl⟩, ⟨_, ?_, rfl⟩, ?_⟩
  · intro slot hs
    have hmem : Key.inst .gp (String.ofList (slot.toList.drop 2)) ∈ G.hnames := by
      rw [hn]; unfold stdNames
      exact List.mem_map.2 ⟨slot.toList, hs, rfl⟩
    have hrender : ∀ kind : KernelKind, ∀ s ∈ kind.slots, (Key.inst .gp (String.ofList (s.drop 2))).render = s := by
      intro kind; cases kind <;> decide
    obtain ⟨i, r, hi, hr'⟩ := hI.row hmem
    refine ⟨_, hmem, .inl (hrender _ _ hs), i, r, hi, hr', ?_⟩
    have := hr _ _ (.inl (hI.keys _ hmem)) hi
    rw [this] at hr'; cases hr'; rfl
  · have := hr _ _ (.inl (hb.inv.1.ext _ _ rfl rfl hon.gamma).1) hon.gamma
    rw [hsuf] at this; exact this
  · have := hr _ _ (.inl (hb.inv.1.ext _ _ rfl rfl hon.jit).1) hon.jit
    rw [hsuf] at this; exact this
  · intro o _
    exact flat_model drive tb o.t g.st hb hN row hr

theorem slot_cases {kind : KernelKind} {slot : String} (hs : slot.toList ∈ kind.slots) :
    slot = "gp_length" ∨ slot = "gp_amp" ∨ slot = "gp_per" ∨ slot = "gp_explength" ∨ slot = "gp_perlength" := by
  have h2 : ∀ t : String, slot.toList = t.toList → slot = t := fun t h => String.toList_inj.1 h
  cases kind <;> simp only [KernelKind.slots, List.mem_cons, List.not_mem_nil, or_false] at hs
  · rcases hs with h | h
    · exact .inl (h2 _ h)
    · exact .inr (.inl (h2 _ h))
  · rcases hs with h | h | h
    · exact .inl (h2 _ h)
    · exact .inr (.inl (h2 _ h))
    · exact .inr (.inr (.inl (h2 _ h)))
  · rcases hs with h | h | h | h
    · exact .inr (.inr (.inr (.inr (h2 _ h))))
    · exact .inr (.inl (h2 _ h))
    · exact .inr (.inr (.inl (h2 _ h)))
    · exact .inr (.inr (.inr (.inl (h2 _ h))))

/-- Rows with given hyperparameters, gamma and jitter, no trend, gamma not linear. -/
noncomputable def gpRow (h : String → ℝ) (γ jit : ℝ) : Key → Row ℝ
  | .inst .gp r => { value := h ("gp" ++ r), vary := true, scale := 0, linear := false }
  | .inst .gamma _ => { value := γ, vary := true, scale := 0, linear := false }
  | .inst .jit _ => { value := jit, vary := true, scale := 0, linear := false }
  | _ => { value := 0, vary := true, scale := 0, linear := false }

/-- What is written into the vector for other values. -/
noncomputable def GPState.put (g : GPState) (h : String → ℝ) (γ jit : ℝ) : GPState := { g with st := { g.st with rows := g.st.names.map (gpRow h γ jit) } }

/-- A fresh GP likelihood of any kind with any data, whose vector can be given any hyperparameters, gamma and jitter. -/
theorem gpWitness (drive : Drive) (tb : ℝ) (kind : KernelKind) (obs : List Obs) :
    ∃ G g, GPReach (fun s t => modelCall drive tb s none t) G g [G.rv] ∧ g.AtData G ∧ g.kernel.cov = none ∧ g.kernel.kind = kind ∧ G.rv.obs = obs ∧
      (∀ h γ jit, (g.st.names.map (gpRow h γ jit)).length = g.st.rows.length) ∧
      (∀ r ∈ g.st.rows, r.linear = false) ∧
      ∀ h γ jit, GPContext (fun s t => modelCall drive tb s none t) G (g.put h γ jit) h γ jit (fun _ => 0) := by
  obtain ⟨G, g, h1, h2, h3, h4, h5, h6, h7, h8, h9⟩ := flatGP (fun s t => modelCall drive tb s none t) kind obs (gpRow (fun _ => 1) 0 0)
  have hn := h1.inv.built.namesOk
  have hlen : ∀ h γ jit, (g.st.names.map (gpRow h γ jit)).length = g.st.rows.length := fun h γ jit => by simp [hn.len]
  have hput : ∀ h γ jit, GPReach (fun s t => modelCall drive tb s none t) G (g.put h γ jit) [G.rv] := fun h γ jit => .write g _ h1 _ (hlen h γ jit)
  refine ⟨G, g.put (fun _ => 1) 0 0, hput _ _ _, h2, h3, h4, h5, fun h γ jit => by show (g.st.names.map _).length = (g.st.names.map _).length; simp, ?_, ?_⟩
  · intro r hr
    obtain ⟨k, _, rfl⟩ := List.mem_map.1 hr
    unfold gpRow
    split <;> rfl
  · intro h γ jit
    have hc := flatGP_context drive tb (hput h γ jit).inv h6 (by rw [h7]; show stdNames kind = stdNames g.kernel.kind; rw [h4]) h8 (gpRow h γ jit) (by
      intro k i hk hi
      show (g.st.names.map _)[i]? = _
      simp [hn.fwd k i hk hi])
    have e : (g.put (fun _ => 1) 0 0).put h γ jit = g.put h γ jit := rfl
    rw [e]
    refine ⟨?_, hc.gamma, hc.jitter, ?_⟩
    · intro slot hs
      have := hc.hyper slot hs
      rcases slot_cases hs with rfl | rfl | rfl | rfl | rfl <;> exact this
    · intro o ho
      have := hc.model o ho
      simpa [gpRow] using this

end Radvel
