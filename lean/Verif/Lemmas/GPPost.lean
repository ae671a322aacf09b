import Verif.Model.GPPost
import Verif.Lemmas.FileModel
import Verif.Lemmas.GPEval

/-! Lemmas for C155. -/

namespace Radvel

open Real

/-- What evaluations leave alone in the shared state. -/
structure VFrame (s s' : VState ℝ) : Prop where
  rows : s'.rows = s.rows
  indices : s'.indices = s.indices
  basis : s'.params.basis = s.params.basis
  planets : s'.params.numPlanets = s.params.numPlanets
  keys : s'.params.items.keys = s.params.items.keys
  likes : ∀ Ls, Likes s Ls → Likes s' Ls

theorem VFrame.refl (s : VState ℝ) : VFrame s s := ⟨rfl, rfl, rfl, rfl, rfl, fun _ h => h⟩

theorem VFrame.trans {a b c : VState ℝ} (h : VFrame a b) (h' : VFrame b c) : VFrame a c :=
  ⟨h'.rows.trans h.rows, h'.indices.trans h.indices, h'.basis.trans h.basis, h'.planets.trans h.planets, h'.keys.trans h.keys, fun Ls hl => h'.likes Ls (h.likes Ls hl)⟩

theorem logprob_vframe (mod : Curve) (G : GPLike) (g : GPState) : VFrame g.st (G.logprob mod g).1.st := by
  obtain ⟨k, h1, -⟩ := logprob_state mod G g
  have f := update_frame G g
  rw [h1]
  exact ⟨f.rows, f.indices, f.basis, f.planets, f.keys, fun Ls hl => update_likes G g hl⟩

/-- A member of the composite in the shared state. -/
def MemberOk (s : VState ℝ) (m : GPLike × Kernel) : Prop := GPInv m.1 ⟨s, m.2⟩ [m.1.rv] ∧ GPState.AtData m.1 ⟨s, m.2⟩

theorem MemberOk.frame {s s' : VState ℝ} {m : GPLike × Kernel} (h : MemberOk s m) (f : VFrame s s') : MemberOk s' m :=
  ⟨⟨f.likes _ h.1.likes, h.1.mem, h.1.nodec, fun k hk => by simp only [f.keys]; exact h.1.keys k hk, h.1.slots, h.1.bij⟩, h.2⟩

theorem MemberOk.write {s : VState ℝ} {m : GPLike × Kernel} (h : MemberOk s m) (rows : List (Row ℝ)) (hl : rows.length = s.rows.length) : MemberOk { s with rows := rows } m :=
  ⟨⟨.write _ _ rows h.1.likes hl, h.1.mem, h.1.nodec, h.1.keys, h.1.slots, h.1.bij⟩, h.2⟩

theorem MemberOk.logprob (mod : Curve) {s : VState ℝ} {G : GPLike} {k : Kernel} (h : MemberOk s (G, k)) :
    MemberOk (G.logprob mod ⟨s, k⟩).1.st (G, (G.logprob mod ⟨s, k⟩).1.kernel) ∧ (G.logprob mod ⟨s, k⟩).1.kernel.kind = k.kind := by
  obtain ⟨k', h1, h2, h3, h4⟩ := logprob_state mod G ⟨s, k⟩
  have f := update_frame G ⟨s, k⟩
  rw [h1]
  refine ⟨⟨h.1.update.kframe h2, h3.trans h.2.1, h4.trans h.2.2⟩, h2.kind.trans f.kind⟩

/-- The members without what evaluations change. -/
def memberKinds (ms : List (GPLike × Kernel)) : List (GPLike × KernelKind) := ms.map fun m => (m.1, m.2.kind)

theorem gpSum_frame (mod : Curve) : ∀ (ms : List (GPLike × Kernel)) (s : VState ℝ) (acc : Fl), (∀ m ∈ ms, MemberOk s m) →
    VFrame s (gpSum mod ms s acc).1.1 ∧ (∀ m ∈ (gpSum mod ms s acc).1.2, MemberOk (gpSum mod ms s acc).1.1 m) ∧ memberKinds (gpSum mod ms s acc).1.2 = memberKinds ms
  | [], s, acc, _ => ⟨.refl s, by simp [gpSum], rfl⟩
  | (G, k) :: t, s, acc, h => by
    have hf := logprob_vframe mod G ⟨s, k⟩
    obtain ⟨ho, hk⟩ := (h (G, k) List.mem_cons_self).logprob mod
    have ht : ∀ m ∈ t, MemberOk (G.logprob mod ⟨s, k⟩).1.st m := fun m hm => (h m (List.mem_cons_of_mem _ hm)).frame hf
    unfold gpSum
    rcases hg : G.logprob mod ⟨s, k⟩ with ⟨g, e | v⟩
    · rw [hg] at hf ho hk ht
      refine ⟨hf, ?_, by simp only [memberKinds, List.map_cons]; rw [hk]⟩
      intro m hm
      rcases List.mem_cons.1 hm with rfl | hm
      · exact ho
      · exact ht m hm
    · rw [hg] at hf ho hk ht
      obtain ⟨i1, i2, i3⟩ := gpSum_frame mod t g.st (acc + v) ht
      simp only
      rcases hr : gpSum mod t g.st (acc + v) with ⟨⟨s', t'⟩, r⟩
      rw [hr] at i1 i2 i3
      refine ⟨hf.trans i1, ?_, by simp only [memberKinds, List.map_cons] at i3 ⊢; rw [i3, hk]⟩
      intro m hm
      rcases List.mem_cons.1 hm with rfl | hm
      · exact ho.frame i1
      · exact i2 m hm

theorem GPContext.frame {mod : Curve} (hmod : mod.DictFree) {G : GPLike} {s s' : VState ℝ} {k k' : Kernel} {h : String → ℝ} {γ jit : ℝ} {M : ℝ → ℝ}
    (hc : GPContext mod G ⟨s, k⟩ h γ jit M) (f : VFrame s s') (hk : k'.kind = k.kind) : GPContext mod G ⟨s', k'⟩ h γ jit M := by
  refine ⟨?_, by simp only [f.rows]; exact hc.gamma, by simp only [f.rows]; exact hc.jitter, fun o ho => ?_⟩
  · intro slot hs
    obtain ⟨key, h1, h2, i, r, h3, h4, h5⟩ := hc.hyper slot (by simpa [hk] using hs)
    exact ⟨key, h1, h2, i, r, by simp only [f.indices]; exact h3, by simp only [f.rows]; exact h4, h5⟩
  · rw [hmod s s' f.rows f.indices f.basis f.planets]
    exact hc.model o ho

open Classical in
/-- The value of one likelihood. -/
noncomputable def gpTerm (kind : KernelKind) (h : String → ℝ) (obs : List Obs) (jit γ : ℝ) (M : ℝ → ℝ) : Fl :=
  if (dataCov kind h obs jit).PosDef then .fin (log (mvnDensity (dataCov kind h obs jit) fun i => obs[i].y - γ - M obs[i].t)) else .neg

theorem gpSum_value {mod : Curve} (hmod : mod.DictFree) : ∀ (ms : List (GPLike × Kernel)) (vals : List Fl) (s : VState ℝ) (acc : Fl),
    List.Forall₂ (fun m v => MemberOk s m ∧ ∃ h γ jit M, GPContext mod m.1 ⟨s, m.2⟩ h γ jit M ∧ Regular m.2.kind h ∧ v = gpTerm m.2.kind h m.1.rv.obs jit γ M) ms vals →
    (gpSum mod ms s acc).2 = .ok (vals.foldl (· + ·) acc)
  | _, _, _, _, .nil => rfl
  | (G, k) :: t, v :: vs, s, acc, .cons ⟨ho, h, γ, jit, M, hc, hr, hv⟩ ht => by
    have hf := logprob_vframe mod G ⟨s, k⟩
    have hval : (G.logprob mod ⟨s, k⟩).2 = .ok (gpTerm k.kind h G.rv.obs jit γ M) := logprob_regular hmod ho.1 ho.2 hc hr
    unfold gpSum
    rcases hg : G.logprob mod ⟨s, k⟩ with ⟨g, r⟩
    rw [hg] at hf hval
    simp only at hval
    rw [hval]
    simp only
    rw [← show v = gpTerm k.kind h G.rv.obs jit γ M from hv]
    have ih := gpSum_value hmod t vs g.st (acc + v) (ht.imp fun m w ⟨a1, h', γ', jit', M', a2, a3, a4⟩ => ⟨a1.frame hf, h', γ', jit', M', a2.frame hmod hf rfl, a3, a4⟩)
    rcases hs : gpSum mod t g.st (acc + v) with ⟨⟨s', t'⟩, r'⟩
    rw [hs] at ih
    exact ih

/-! ### histories -/

/-- Two posteriors that can differ only in free rows, in the values in the dictionary and in what the kernels hold. -/
structure GPSim (p p' : GPPost) : Prop where
  priors : p'.priors = p.priors
  indices : p'.st.indices = p.st.indices
  basis : p'.st.params.basis = p.st.params.basis
  planets : p'.st.params.numPlanets = p.st.params.numPlanets
  flags : SameFlags p.st.rows p'.st.rows
  rows : ∀ i : Nat, i ∉ freeRows p.st.rows → p'.st.rows[i]? = p.st.rows[i]?
  cache : p'.likeCache = none ∨ p'.likeCache = some (freeRows p'.st.rows)
  kinds : memberKinds p'.members = memberKinds p.members
  ok : ∀ m ∈ p'.members, MemberOk p'.st m

theorem gpSetFast_spec (p : GPPost) (hc : p.likeCache = none ∨ p.likeCache = some (freeRows p.st.rows)) (xs : List ℝ) :
    p.setFast xs = ({ p with st := { p.st with rows := (writeVals (freeRows p.st.rows) xs p.st.rows).1 }, likeCache := some (freeRows p.st.rows) },
      (writeVals (freeRows p.st.rows) xs p.st.rows).2) := by
  have h := setFast_spec { st := p.st, likeCache := p.likeCache, postCache := none, priors := [] } hc xs
  unfold PostState.setFast PostState.likeState at h
  simp only [Prod.mk.injEq, PostState.mk.injEq] at h
  unfold GPPost.setFast
  simp only [h]

theorem GPSim.set {p p' : GPPost} (h : GPSim p p') (xs : List ℝ) : GPSim p (p'.setFast xs).1 := by
  rw [gpSetFast_spec p' h.cache]
  obtain ⟨w1, w2⟩ := writeVals_flags (freeRows p'.st.rows) xs p'.st.rows
  have hfr : freeRows p'.st.rows = freeRows p.st.rows := h.flags.freeRows
  refine ⟨h.priors, h.indices, h.basis, h.planets, h.flags.trans w1, ?_, .inr ?_, h.kinds, fun m hm => (h.ok m hm).write _ w1.1⟩
  · intro i hf
    simp only
    rw [w2 i (by rw [hfr]; exact hf)]
    exact h.rows i hf
  · simp only [w1.freeRows]

theorem GPSim.addLike {mod : Curve} {p p' : GPPost} (h : GPSim p p') (v : Fl) : GPSim p (p'.addLike mod v).1 := by
  obtain ⟨f, o, k⟩ := gpSum_frame mod p'.members p'.st 0 h.ok
  have key : ∀ s ms, s = (gpSum mod p'.members p'.st 0).1.1 → ms = (gpSum mod p'.members p'.st 0).1.2 → GPSim p { p' with st := s, members := ms } := by
    rintro s ms rfl rfl
    exact ⟨h.priors, f.indices.trans h.indices, f.basis.trans h.basis, f.planets.trans h.planets, by simp only [f.rows]; exact h.flags, by simp only [f.rows]; exact h.rows,
      by simp only [f.rows]; exact h.cache, k.trans h.kinds, o⟩
  unfold GPPost.addLike
  rcases hs : gpSum mod p'.members p'.st 0 with ⟨⟨s, ms⟩, e | l⟩ <;> exact key s ms (by rw [hs]) (by rw [hs])

theorem GPSim.array {mod : Curve} {p p' : GPPost} (h : GPSim p p') (xs : List ℝ) : GPSim p (p'.logprobArray mod xs).1 := by
  have hs := h.set xs
  unfold GPPost.logprobArray
  rcases hx : p'.setFast xs with ⟨q, _ | e⟩
  · rw [hx] at hs
    simp only at hs ⊢
    unfold GPPost.logprob
    split
    · exact hs
    · split
      · exact hs.addLike _
      · exact hs
  · rw [hx] at hs; exact hs

theorem GPSim.ns {mod : Curve} {p p' : GPPost} (h : GPSim p p') (xs : List ℝ) : GPSim p (p'.likelihoodNsArray mod xs).1 := by
  have hs := h.set xs
  unfold GPPost.likelihoodNsArray
  rcases hx : p'.setFast xs with ⟨q, _ | e⟩
  · rw [hx] at hs
    simp only at hs ⊢
    split
    · exact hs
    · split
      · exact hs.addLike _
      · exact hs
  · rw [hx] at hs; exact hs

/-- Writing an array of the right length does not depend on what the free rows held. -/
theorem writeVals_agree {rows rows' : List (Row ℝ)} (hf : SameFlags rows rows') (hr : ∀ i : Nat, i ∉ freeRows rows → rows'[i]? = rows[i]?) (xs : List ℝ)
    (hl : xs.length = (freeRows rows).length) : writeVals (freeRows rows) xs rows' = writeVals (freeRows rows) xs rows := by
  have hfr := hf.freeRows
  obtain ⟨a1, a2⟩ := writeVals_ok (freeRows rows) xs rows (nodup_freeRows _) (freeRows_lt _) hl
  obtain ⟨b1, b2⟩ := writeVals_ok (freeRows rows) xs rows' (nodup_freeRows _) (by rw [← hfr]; exact freeRows_lt _) hl
  obtain ⟨c1, c2⟩ := writeVals_flags (freeRows rows) xs rows
  obtain ⟨d1, d2⟩ := writeVals_flags (freeRows rows) xs rows'
  refine Prod.ext ?_ (b1.trans a1.symm)
  apply List.ext_getElem?
  intro i
  by_cases hi : i ∈ freeRows rows
  · obtain ⟨j, hj⟩ := List.getElem?_of_mem hi
    obtain ⟨r, x, e1, e2, e3⟩ := a2 j i hj
    obtain ⟨r', x', e1', e2', e3'⟩ := b2 j i hj
    rw [e2] at e2'; cases e2'
    obtain ⟨r'', g1, g2, g3, g4⟩ := hf.2 i r e1
    rw [e1'] at g1; cases g1
    rw [e3, e3']
    obtain ⟨_, _, _, _⟩ := r
    obtain ⟨_, _, _, _⟩ := r'
    simp only at g2 g3 g4
    simp [g2, g3, g4]
  · rw [c2 i hi, d2 i hi, hr i hi]

/-! ### from the file -/

/-- A GP likelihood of the file. -/
def FileGP (P : SetupFile) (d : Dict String (List Key)) (s : VState ℝ) (i : String) (m : GPLike × Kernel) : Prop :=
  ∃ kind, P.kernelOf i = .ok (.matrix kind) ∧ m.2.kind = kind ∧ d.get? i = some m.1.hnames ∧ m.1.rv.obs = (P.rowsOf i).map DataRow.obs ∧ m.1.rv.suffix = "_" ++ i ∧ MemberOk s m

theorem addInst_gp {dflt : ℝ} {P : SetupFile} {vars : List String} {s : VState ℝ} (hu : UserParams P.params) (hs : VState.init P.params = .ok s) {d : Dict String (List Key)}
    (hh : P.hnames = some d) {acc r : VState ℝ × Dict String InstLike} {i : String} (hk : ∃ kind, P.kernelOf i = .ok (.matrix kind))
    (h : P.addInst vars (copyParams dflt P.params) acc i = .ok r) (ha : acc.1 = s)
    (hl : ∀ j M, (j, M) ∈ acc.2 → ∃ G k, M = .gp G k ∧ FileGP P d s j (G, k)) :
    r.1 = s ∧ (∀ j M, (j, M) ∈ r.2 → ∃ G k, M = .gp G k ∧ FileGP P d s j (G, k)) ∧ Key.inst .gamma ("_" ++ i) ∈ P.params.items.keys ∧
      Key.inst .jit ("_" ++ i) ∈ P.params.items.keys := by
  obtain ⟨-, k1, k2, -⟩ := addInst_needs dflt hu.good.nodup h
  obtain ⟨-, -, s1, M, s2, b1, b2, b3, b4⟩ := addInst_inv h
  obtain ⟨kind, hkind⟩ := hk
  have hstart := start_inv hu [] hs
  obtain ⟨L, c1, c2, c3, c4⟩ := newLike_same hu hs ((P.rowsOf i).map DataRow.obs) i k1 k2
  unfold SetupFile.newLike at b1
  simp only [hh, hkind] at b1
  rcases hd : d.get? i with _ | hn
  · rw [hd] at b1; cases b1
  · rw [hd] at b1
    simp only [newGP, ha] at b1
    rcases hG : GPLike.new s ((P.rowsOf i).map DataRow.obs) hn ("_" ++ i) kind with e | ⟨G, g⟩
    · rw [hG] at b1; cases b1
    · rw [hG] at b1
      simp only [Except.ok.injEq, Prod.mk.injEq] at b1
      obtain ⟨e1, e2⟩ := b1
      obtain ⟨n1, n2, -, n4, n5, n6, n7, n8⟩ := GPLike.new_inv (.start s (.model _ _ hu hs)) hG
      rw [c1] at n8
      simp only [Except.ok.injEq, Prod.mk.injEq] at n8
      have es : s1 = s := by rw [← e1, ← n8.1]
      subst es
      rw [resetPar_same hstart hu.good.nodup, if_pos k1] at b2
      cases b2
      rw [resetPar_same hstart hu.good.nodup, if_pos k2] at b3
      refine ⟨(Except.ok.inj b3).symm, ?_, k1, k2⟩
      intro j M' hm
      rw [b4] at hm
      rcases Dict.mem_set' hm with hm | hm
      · exact hl j M' hm
      · cases hm
        refine ⟨G, g.kernel, e2.symm, kind, hkind, n4, by rw [n6]; exact hd, n5, n7, ?_⟩
        obtain ⟨gs, gk⟩ := g
        simp only at e1
        subst e1
        exact ⟨n1, n2⟩

theorem instLoop_gp {dflt : ℝ} {P : SetupFile} {vars : List String} {s : VState ℝ} (hu : UserParams P.params) (hs : VState.init P.params = .ok s) {d : Dict String (List Key)}
    (hh : P.hnames = some d) :
    ∀ (l : List String) (acc r : VState ℝ × Dict String InstLike), (∀ i ∈ l, ∃ kind, P.kernelOf i = .ok (.matrix kind)) →
      l.foldlM (P.addInst vars (copyParams dflt P.params)) acc = .ok r → acc.1 = s →
      (∀ j M, (j, M) ∈ acc.2 → ∃ G k, M = .gp G k ∧ FileGP P d s j (G, k)) →
      r.1 = s ∧ (∀ j M, (j, M) ∈ r.2 → ∃ G k, M = .gp G k ∧ FileGP P d s j (G, k)) ∧
        ∀ i ∈ l, Key.inst .gamma ("_" ++ i) ∈ P.params.items.keys ∧ Key.inst .jit ("_" ++ i) ∈ P.params.items.keys := by
  intro l
  induction l with
  | nil => intro acc r _ h ha hl; cases h; exact ⟨ha, hl, by simp⟩
  | cons a t ih =>
    intro acc r hk h ha hl
    change (P.addInst vars (copyParams dflt P.params) acc a >>= _) = _ at h
    rcases h1 : P.addInst vars (copyParams dflt P.params) acc a with e | acc'
    · rw [h1] at h; cases h
    · rw [h1] at h
      obtain ⟨b1, b2, b3, b4⟩ := addInst_gp hu hs hh (hk a (by simp)) h1 ha hl
      obtain ⟨c1, c2, c3⟩ := ih acc' r (fun i hi => hk i (by simp [hi])) h b1 b2
      refine ⟨c1, c2, fun i hi => ?_⟩
      rcases List.mem_cons.1 hi with rfl | hi
      · exact ⟨b3, b4⟩
      · exact c3 i hi

theorem gpMembers_list {P : SetupFile} {d : Dict String (List Key)} {s : VState ℝ} : ∀ (l : Dict String InstLike), (∀ j M, (j, M) ∈ l → ∃ G k, M = .gp G k ∧ FileGP P d s j (G, k)) →
    ∃ ms, gpMembers (l.map Prod.snd) = some ms ∧ List.Forall₂ (fun i m => FileGP P d s i m) (l.map Prod.fst) ms
  | [], _ => ⟨[], rfl, .nil⟩
  | (i, M) :: t, h => by
    obtain ⟨G, k, rfl, h2⟩ := h i M List.mem_cons_self
    obtain ⟨ms, h3, h4⟩ := gpMembers_list t (fun j M hm => h j M (List.mem_cons_of_mem _ hm))
    exact ⟨(G, k) :: ms, by simp [gpMembers, h3], .cons h2 h4⟩

/-- What `initialize` makes of a file with matrix GPs: the model of its parameters and one GP likelihood for every instrument; decorrelation is passed over. -/
theorem initialize_gp {dflt : ℝ} {P : SetupFile} {option : Bool} (hu : UserParams P.params) (hj : ∀ k, Key.inst .logjit k ∉ P.params.items.keys) {d : Dict String (List Key)}
    (hh : P.hnames = some d) (hk : ∀ i ∈ P.instnames, ∃ kind, P.kernelOf i = .ok (.matrix kind)) {r : SetupPost} (h : P.initialize dflt option = .ok r) :
    VState.init P.params = .ok r.st ∧ (∀ i ∈ P.instnames, Key.inst .gamma ("_" ++ i) ∈ P.params.items.keys ∧ Key.inst .jit ("_" ++ i) ∈ P.params.items.keys) ∧
      ∃ ms, gpMembers (r.likes.map Prod.snd) = some ms ∧ List.Forall₂ (fun i m => FileGP P d r.st i m) (firsts P.instnames) ms := by
  obtain ⟨-, vars, items, s, hv, hi, hs, hl, -⟩ := initialize_inv h
  rw [convertLogjit_none _ _ hj] at hi
  cases hi
  obtain ⟨a1, a2, a3⟩ := instLoop_gp hu hs hh P.instnames (s, []) _ hk hl rfl (by simp)
  simp only at a1 a2
  obtain ⟨-, -, l3⟩ := instLoop_holds _ _ _ hl (by simp) (by simp [Dict.keys])
  have l4 : r.likes.map Prod.fst = firsts P.instnames := by
    have : r.likes.keys = _ := l3
    simpa [Dict.keys] using this
  obtain ⟨ms, b1, b2⟩ := gpMembers_list r.likes a2
  rw [l4] at b2
  rw [a1]
  exact ⟨hs, a3, ms, b1, b2⟩

end Radvel
