import Verif.Spec.GP
import Verif.Lemmas.RVLikeData

/-! Names of hyperparameters, construction of kernels and `update_kernel_params`. -/

namespace Radvel

/-! ### `split('_')` -/

theorem split_at_u (l : List Char) : '_' ∉ l ∨ ∃ a t, '_' ∉ a ∧ l = a ++ '_' :: t := by
  induction l with
  | nil => left; simp
  | cons c l ih =>
    by_cases hc : c = '_'
    · right; exact ⟨[], l, by simp, by simp [hc]⟩
    · rcases ih with h | ⟨a, t, h1, h2⟩
      · left; simp [h, Ne.symm hc]
      · right; exact ⟨c :: a, t, by simp [h1, Ne.symm hc], by simp [h2]⟩

theorem hparamsKey_eq (a b : List Char) (ha : '_' ∉ a) (hb : '_' ∉ b) (name : List Char) (h : Named (a ++ '_' :: b) name) : hparamsKey name = .ok (a ++ '_' :: b) := by
  rcases h with rfl | ⟨rest, rfl⟩
  · unfold hparamsKey; rw [splitU_append _ _ ha, splitU_noU _ hb]
  · unfold hparamsKey
    rw [List.append_assoc, List.cons_append, splitU_append _ _ ha, splitU_append _ _ hb]

theorem hparamsKey_named {name slot : List Char} (h : hparamsKey name = .ok slot) : Named slot name := by
  unfold hparamsKey at h
  rcases split_at_u name with h1 | ⟨a, t, h1, rfl⟩
  · rw [splitU_noU _ h1] at h; simp at h
  · rw [splitU_append _ _ h1] at h
    rcases split_at_u t with h2 | ⟨b, u, h2, rfl⟩
    · rw [splitU_noU _ h2] at h
      simp at h; subst h; exact .inl rfl
    · rw [splitU_append _ _ h2] at h
      simp at h; subst h
      exact .inr ⟨u, by simp⟩

theorem hparamsKey_slot (kind : KernelKind) {slot : List Char} (hs : slot ∈ kind.slots) {name : List Char} (h : Named slot name) : hparamsKey name = .ok slot := by
  have key : ∀ kind : KernelKind, ∀ slot ∈ kind.slots, ∃ b, slot = ['g', 'p'] ++ '_' :: b ∧ '_' ∉ b := by
    intro kind slot hs
    have h1 : slot = ['g', 'p'] ++ '_' :: slot.drop 3 ∧ '_' ∉ slot.drop 3 := by
      revert slot; cases kind <;> decide
    exact ⟨_, h1⟩
  obtain ⟨b, rfl, hb⟩ := key kind slot hs
  exact hparamsKey_eq _ _ (by decide) hb _ h

/-! ### which slot takes a name -/

theorem slots_prefix (kind : KernelKind) : ∀ a ∈ kind.slots, ∀ b ∈ kind.slots, a <+: b →
    a = b ∨ (kind = .quasiPer ∧ a = "gp_per".toList ∧ b = "gp_perlength".toList) := by
  cases kind <;> decide

theorem perlength_hasLength {name : List Char} (h : "gp_perlength".toList <+: name) : hasLength name = true := by
  unfold hasLength
  rw [decide_eq_true_iff]
  exact (show "length".toList <:+: "gp_perlength".toList by decide).trans h.isInfix

theorem takes_prefix {kind : KernelKind} {slot name : List Char} (h : kind.takes slot name = true) : slot <+: name := by
  unfold KernelKind.takes at h
  rw [Bool.and_eq_true] at h
  exact List.isPrefixOf_iff_prefix.1 h.1

theorem takes_quasi {name : List Char} (h : KernelKind.quasiPer.takes "gp_per".toList name = true) : hasLength name = false := by
  unfold KernelKind.takes at h
  rw [Bool.and_eq_true] at h
  have := h.2
  simpa using this

theorem takes_unique {kind : KernelKind} {a b name : List Char} (ha : a ∈ kind.slots) (hb : b ∈ kind.slots) (h : kind.takes a name = true) (h' : kind.takes b name = true) :
    a = b := by
  have key : ∀ a b, a ∈ kind.slots → b ∈ kind.slots → kind.takes a name = true → kind.takes b name = true → a <+: b → a = b := by
    intro a b ha hb h h' hp
    rcases slots_prefix kind a ha b hb hp with e | ⟨rfl, rfl, rfl⟩
    · exact e
    · have h1 := perlength_hasLength (takes_prefix h')
      rw [takes_quasi h] at h1; cases h1
  rcases List.prefix_or_prefix_of_prefix (takes_prefix h) (takes_prefix h') with hp | hp
  · exact key a b ha hb h h' hp
  · exact (key b a hb ha h' h hp).symm

theorem Named.prefix {slot name : List Char} (h : Named slot name) : slot <+: name := by
  rcases h with rfl | ⟨rest, rfl⟩
  · exact List.prefix_rfl
  · exact List.prefix_append _ _

theorem takes_named {kind : KernelKind} {a b name : List Char} (ha : a ∈ kind.slots) (hb : b ∈ kind.slots) (h : kind.takes a name = true) (h' : Named b name) : a = b := by
  rcases List.prefix_or_prefix_of_prefix (takes_prefix h) h'.prefix with hp | hp
  · rcases slots_prefix kind a ha b hb hp with e | ⟨rfl, rfl, rfl⟩
    · exact e
    · have h1 := perlength_hasLength h'.prefix
      rw [takes_quasi h] at h1; cases h1
  · rcases slots_prefix kind b hb a ha hp with e | ⟨rfl, rfl, rfl⟩
    · exact e.symm
    · obtain ⟨t, ht⟩ := takes_prefix h
      rcases h' with rfl | ⟨rest, rfl⟩
      · simp at ht
      · simp at ht

/-! ### construction -/

theorem Dict.has_set {κ ν : Type} [DecidableEq κ] (d : Dict κ ν) (k k' : κ) (v : ν) : (d.set k v).has k' = true ↔ k = k' ∨ d.has k' = true := by
  unfold Dict.has
  rw [Dict.get?_set]
  by_cases h : k = k' <;> simp [h]

theorem assignFold_has (kind : KernelKind) (v : ℝ) (name : List Char) (slot : List Char) (l : List (List Char)) (hp : Dict (List Char) ℝ) :
    (l.foldl (fun hp slot => if kind.takes slot name then hp.set slot v else hp) hp).has slot = true ↔
      hp.has slot = true ∨ (slot ∈ l ∧ kind.takes slot name = true) := by
  induction l generalizing hp with
  | nil => simp
  | cons a t ih =>
    rw [List.foldl_cons, ih]
    by_cases ha : kind.takes a name = true
    · rw [if_pos ha, Dict.has_set]
      by_cases e : a = slot
      · subst e; simp [ha]
      · simp [e, Ne.symm e]
    · rw [if_neg ha]
      by_cases e : a = slot
      · subst e; simp [ha]
      · simp [Ne.symm e]

theorem newFold_has (kind : KernelKind) (d : Dict Key ℝ) (slot : List Char) (hp : Dict (List Char) ℝ) :
    (d.foldl kind.assign hp).has slot = true ↔ hp.has slot = true ∨ (slot ∈ kind.slots ∧ ∃ k ∈ d.keys, kind.takes slot k.render = true) := by
  induction d generalizing hp with
  | nil => simp [Dict.keys]
  | cons p t ih =>
    rw [List.foldl_cons, ih]
    unfold KernelKind.assign
    rw [assignFold_has]
    simp only [Dict.keys, List.map_cons, List.mem_cons, exists_eq_or_imp]
    tauto

/-- The names of the hyperparameters and the slots of the kernel correspond one to one. -/
structure NameBij (kind : KernelKind) (hnames : List Key) : Prop where
  onto : ∀ slot ∈ kind.slots, ∃ k ∈ hnames, kind.takes slot k.render = true
  total : ∀ k ∈ hnames, ∃ slot ∈ kind.slots, kind.takes slot k.render = true
  inj : ∀ k ∈ hnames, ∀ k' ∈ hnames, ∀ slot, kind.takes slot k.render = true → kind.takes slot k'.render = true → slot ∈ kind.slots → k = k'

theorem slots_nodup (kind : KernelKind) : kind.slots.Nodup := by cases kind <;> decide

theorem Kernel.new_spec {kind : KernelKind} {d : Dict Key ℝ} (hd : d.keys.Nodup) {k : Kernel} (h : Kernel.new kind d = .ok k) :
    k.kind = kind ∧ k.cov = none ∧ (∀ slot, k.hp.has slot = true ↔ slot ∈ kind.slots) ∧ NameBij kind d.keys := by
  unfold Kernel.new at h
  simp only at h
  split at h
  · cases h
  · rename_i hl
    split at h
    · rename_i hall
      cases h
      have hhas := newFold_has kind d
      simp only [List.all_eq_true] at hall
      have onto : ∀ slot ∈ kind.slots, ∃ k ∈ d.keys, kind.takes slot k.render = true := by
        intro slot hs
        have := (hhas slot []).1 (hall slot hs)
        simpa [Dict.has, hs] using this
      haveI : Nonempty Key := ⟨.dvdt⟩
      choose! F hF using onto
      have hinj : Set.InjOn F {slot | slot ∈ kind.slots} := by
        intro a ha b hb e
        have h1 := (hF a ha).2
        have h2 := (hF b hb).2
        rw [← e] at h2
        exact takes_unique ha hb h1 h2
      have himg : (kind.slots.toFinset.image F) = d.keys.toFinset := by
        apply Finset.eq_of_subset_of_card_le
        · intro k hk
          simp only [Finset.mem_image, List.mem_toFinset] at hk ⊢
          obtain ⟨s, hs, rfl⟩ := hk
          exact (hF s hs).1
        · rw [Finset.card_image_of_injOn (by intro a ha b hb; exact hinj (by simpa using ha) (by simpa using hb)),
            List.toFinset_card_of_nodup hd, List.toFinset_card_of_nodup (slots_nodup kind), Dict.length_keys]
          simp only [ne_eq, not_not] at hl
          rw [hl]
      have total : ∀ k ∈ d.keys, ∃ slot ∈ kind.slots, F slot = k := by
        intro k hk
        have : k ∈ kind.slots.toFinset.image F := by rw [himg]; simpa using hk
        simpa using this
      refine ⟨rfl, rfl, ?_, ⟨fun s hs => ⟨F s, hF s hs⟩, ?_, ?_⟩⟩
      · intro slot
        simp only
        rw [hhas slot []]
        constructor
        · rintro (h | h)
          · simp [Dict.has] at h
          · exact h.1
        · intro hs
          exact .inr ⟨hs, F slot, hF slot hs⟩
      · intro k hk
        obtain ⟨s, hs, rfl⟩ := total k hk
        exact ⟨s, hs, (hF s hs).2⟩
      · intro k hk k' hk' slot h1 h2 hs
        obtain ⟨s, hs1, rfl⟩ := total k hk
        obtain ⟨s', hs2, rfl⟩ := total k' hk'
        rw [takes_unique hs1 hs (hF s hs1).2 h1, takes_unique hs2 hs (hF s' hs2).2 h2]
    · cases h

/-! ### `update_kernel_params` -/

theorem runLoop_inv {σ β : Type} {f : σ → β → Except PyErr σ} {P : σ → Prop} (hstep : ∀ a b a', f a b = .ok a' → P a → P a') (l : List β) (a : σ) (ha : P a) :
    P (runLoop f a l).1 := by
  induction l generalizing a with
  | nil => exact ha
  | cons b t ih =>
    unfold runLoop
    cases h : f a b with
    | error e => exact ha
    | ok a' => exact ih a' (hstep a b a' h ha)

/-- What a step of `update_kernel_params` does when it succeeds. -/
theorem updateKey_ok {G : GPLike} {acc acc' : GPState} {key : Key} (h : G.updateKey acc key = .ok acc') :
    (key ∉ G.hnames ∧ acc' = acc) ∨
    ∃ slot i r, key ∈ G.hnames ∧ hparamsKey key.render = .ok slot ∧ acc.kernel.hp.has slot = true ∧ acc.st.indices.get? key = some i ∧ acc.st.rows[i]? = some r ∧
      acc' = { st := { acc.st with params :=
                    match acc.st.params.items.get? key with
                    | some q => acc.st.params.setItem key { q with value := r.value }
                    | none => acc.st.params }
               kernel := { acc.kernel with hp := acc.kernel.hp.set slot r.value } } := by
  unfold GPLike.updateKey at h
  split at h
  · rename_i hk; cases h; exact .inl ⟨hk, rfl⟩
  · rename_i hk
    simp only [not_not] at hk
    right
    split at h
    · cases h
    · rename_i slot hslot
      split at h
      · rename_i hhas
        split at h
        · cases h
        · rename_i i hi
          split at h
          · cases h
          · rename_i r hr
            cases h
            exact ⟨slot, i, r, hk, hslot, hhas, hi, hr, rfl⟩
      · cases h

/-- What `update_kernel_params` leaves alone. -/
structure UpdFrame (g g' : GPState) : Prop where
  rows : g'.st.rows = g.st.rows
  indices : g'.st.indices = g.st.indices
  names : g'.st.names = g.st.names
  basis : g'.st.params.basis = g.st.params.basis
  planets : g'.st.params.numPlanets = g.st.params.numPlanets
  keys : g'.st.params.items.keys = g.st.params.items.keys
  kind : g'.kernel.kind = g.kernel.kind
  x1 : g'.kernel.x1 = g.kernel.x1
  x2 : g'.kernel.x2 = g.kernel.x2
  cov : g'.kernel.cov = g.kernel.cov
  slots : ∀ slot, g'.kernel.hp.has slot = true ↔ g.kernel.hp.has slot = true

theorem UpdFrame.refl (g : GPState) : UpdFrame g g := ⟨rfl, rfl, rfl, rfl, rfl, rfl, rfl, rfl, rfl, rfl, fun _ => Iff.rfl⟩

theorem UpdFrame.trans {a b c : GPState} (h : UpdFrame a b) (h' : UpdFrame b c) : UpdFrame a c :=
  ⟨h'.rows.trans h.rows, h'.indices.trans h.indices, h'.names.trans h.names, h'.basis.trans h.basis, h'.planets.trans h.planets, h'.keys.trans h.keys, h'.kind.trans h.kind,
    h'.x1.trans h.x1, h'.x2.trans h.x2, h'.cov.trans h.cov, fun s => (h'.slots s).trans (h.slots s)⟩

theorem updateKey_frame {G : GPLike} {acc acc' : GPState} {key : Key} (h : G.updateKey acc key = .ok acc') : UpdFrame acc acc' := by
  rcases updateKey_ok h with ⟨_, rfl⟩ | ⟨slot, i, r, hk, h1, h2, h3, h4, rfl⟩
  · exact .refl _
  · cases hq : acc.st.params.items.get? key with
    | none =>
      refine ⟨rfl, rfl, rfl, rfl, rfl, rfl, rfl, rfl, rfl, rfl, ?_⟩
      intro s
      simp only [Dict.has_set]
      constructor
      · rintro (rfl | h); exacts [h2, h]
      · exact .inr
    | some q =>
      refine ⟨rfl, rfl, rfl, rfl, rfl, ?_, rfl, rfl, rfl, rfl, ?_⟩
      · exact Dict.keys_set_of_mem _ _ (Dict.mem_keys_of_get? _ hq)
      · intro s
        simp only [Dict.has_set]
        constructor
        · rintro (rfl | h); exacts [h2, h]
        · exact .inr

theorem update_frame (G : GPLike) (g : GPState) : UpdFrame g (G.update g).1 := by
  apply runLoop_inv (P := fun a => UpdFrame g a) _ _ g (.refl g)
  intro a b a' h ha
  exact ha.trans (updateKey_frame h)

theorem updateKey_likes {G : GPLike} {acc acc' : GPState} {key : Key} (h : G.updateKey acc key = .ok acc') {Ls : List RVLike} (hl : Likes acc.st Ls) : Likes acc'.st Ls := by
  rcases updateKey_ok h with ⟨_, rfl⟩ | ⟨slot, i, r, hk, h1, h2, h3, h4, rfl⟩
  · exact hl
  · cases hq : acc.st.params.items.get? key with
    | none => exact hl
    | some q => exact .edit _ _ key { q with value := r.value } hl (.inl (Dict.mem_keys_of_get? _ hq)) (show q.vary ≠ .blank from hl.built.1.inv.1.noblank key q hq)

theorem update_likes (G : GPLike) (g : GPState) {Ls : List RVLike} (hl : Likes g.st Ls) : Likes (G.update g).1.st Ls :=
  runLoop_inv (P := fun a => Likes a.st Ls) (fun _ _ _ h ha => updateKey_likes h ha) _ g hl

/-- What holds of every reachable state. -/
structure GPInv (G : GPLike) (g : GPState) (Ls : List RVLike) : Prop where
  likes : Likes g.st Ls
  mem : G.rv ∈ Ls
  nodec : G.rv.decParams = []
  keys : ∀ k ∈ G.hnames, k ∈ g.st.params.items.keys
  slots : ∀ slot, g.kernel.hp.has slot = true ↔ slot ∈ g.kernel.kind.slots
  bij : NameBij g.kernel.kind G.hnames

theorem GPInv.built {G : GPLike} {g : GPState} {Ls : List RVLike} (h : GPInv G g Ls) : Built g.st := h.likes.built.1

theorem GPInv.on {G : GPLike} {g : GPState} {Ls : List RVLike} (h : GPInv G g Ls) : G.rv.On g.st := h.likes.built.2 _ h.mem

theorem GPInv.update {G : GPLike} {g : GPState} {Ls : List RVLike} (h : GPInv G g Ls) : GPInv G (G.update g).1 Ls := by
  have f := update_frame G g
  refine ⟨update_likes G g h.likes, h.mem, h.nodec, ?_, ?_, ?_⟩
  · rw [f.keys]; exact h.keys
  · intro s; rw [f.slots, f.kind]; exact h.slots s
  · rw [f.kind]; exact h.bij

theorem GPInv.row {G : GPLike} {g : GPState} {Ls : List RVLike} (h : GPInv G g Ls) {k : Key} (hk : k ∈ G.hnames) :
    ∃ i r, g.st.indices.get? k = some i ∧ g.st.rows[i]? = some r := by
  obtain ⟨hi, hu⟩ := h.built.inv
  have hmem := h.keys k hk
  cases hx : g.st.indices.get? k with
  | none =>
    have : k ∈ unindexed g.st := by simp [unindexed, hmem, Dict.has, hx]
    rw [hu] at this; cases this
  | some i =>
    have hlt : i < g.st.rows.length := hi.bound (.inl hmem) hx
    exact ⟨i, g.st.rows[i], rfl, List.getElem?_eq_getElem hlt⟩

theorem updateKey_succeeds {G : GPLike} {g : GPState} {Ls : List RVLike} (h : GPInv G g Ls) (hw : WellNamed g.kernel.kind G.hnames) (key : Key) :
    ∃ g', G.updateKey g key = .ok g' := by
  unfold GPLike.updateKey
  by_cases hk : key ∉ G.hnames
  · exact ⟨g, by rw [if_pos hk]⟩
  · rw [if_neg hk]
    simp only [not_not] at hk
    obtain ⟨slot, hs, hn⟩ := hw key hk
    obtain ⟨i, r, hi, hr⟩ := h.row hk
    rw [hparamsKey_slot _ hs hn]
    simp only [(h.slots slot).2 hs, if_true, hi, hr]
    exact ⟨_, rfl⟩

theorem GPInv.updateKey {G : GPLike} {g g' : GPState} {Ls : List RVLike} {key : Key} (h : GPInv G g Ls) (hk : G.updateKey g key = .ok g') : GPInv G g' Ls := by
  have f := updateKey_frame hk
  refine ⟨updateKey_likes hk h.likes, h.mem, h.nodec, ?_, ?_, ?_⟩
  · rw [f.keys]; exact h.keys
  · intro s; rw [f.slots, f.kind]; exact h.slots s
  · rw [f.kind]; exact h.bij

theorem updateLoop_ok {G : GPLike} {Ls : List RVLike} (l : List Key) {g : GPState} (h : GPInv G g Ls) (hw : WellNamed g.kernel.kind G.hnames) :
    (runLoop G.updateKey g l).2 = .ok () := by
  induction l generalizing g with
  | nil => rfl
  | cons k t ih =>
    obtain ⟨g', hg'⟩ := updateKey_succeeds h hw k
    unfold runLoop
    rw [hg']
    exact ih (h.updateKey hg') (by rw [(updateKey_frame hg').kind]; exact hw)

theorem updateLoop_named {G : GPLike} {Ls : List RVLike} (l : List Key) {g : GPState} (h : GPInv G g Ls) (hok : (runLoop G.updateKey g l).2 = .ok ()) :
    ∀ k ∈ l, k ∈ G.hnames → ∃ slot ∈ g.kernel.kind.slots, Named slot k.render := by
  induction l generalizing g with
  | nil => simp
  | cons k t ih =>
    unfold runLoop at hok
    cases hg : G.updateKey g k with
    | error e => rw [hg] at hok; cases hok
    | ok g' =>
      rw [hg] at hok
      have ih' := ih (h.updateKey hg) hok
      rw [(updateKey_frame hg).kind] at ih'
      intro k' hk' hn
      rcases List.mem_cons.1 hk' with rfl | hk'
      · rcases updateKey_ok hg with ⟨h1, _⟩ | ⟨slot, i, r, h1, h2, h3, _⟩
        · exact absurd hn h1
        · exact ⟨slot, (h.slots slot).1 h3, hparamsKey_named h2⟩
      · exact ih' k' hk' hn

/-- The name of a slot is unique. -/
theorem GPInv.name_unique {G : GPLike} {g : GPState} {Ls : List RVLike} (h : GPInv G g Ls) {slot : List Char} (hs : slot ∈ g.kernel.kind.slots) {k k' : Key}
    (hk : k ∈ G.hnames) (hk' : k' ∈ G.hnames) (h1 : Named slot k.render) (h2 : Named slot k'.render) : k = k' := by
  obtain ⟨a, ha, ta⟩ := h.bij.total k hk
  obtain ⟨b, hb, tb⟩ := h.bij.total k' hk'
  have e1 := takes_named ha hs ta h1
  have e2 := takes_named hb hs tb h2
  subst e1; subst e2
  exact h.bij.inj k hk k' hk' _ ta tb ha

theorem updateLoop_value {G : GPLike} {Ls : List RVLike} (l : List Key) {g : GPState} (h : GPInv G g Ls) (hok : (runLoop G.updateKey g l).2 = .ok ())
    {slot : List Char} (hs : slot ∈ g.kernel.kind.slots) {k : Key} (hk : k ∈ G.hnames) (hn : Named slot k.render) {i : Nat} {r : Row ℝ} (hi : g.st.indices.get? k = some i)
    (hr : g.st.rows[i]? = some r) (hm : k ∈ l ∨ g.kernel.hp.get? slot = some r.value) :
    (runLoop G.updateKey g l).1.kernel.hp.get? slot = some r.value := by
  induction l generalizing g with
  | nil => simpa [runLoop] using hm
  | cons a t ih =>
    unfold runLoop at hok ⊢
    cases hg : G.updateKey g a with
    | error e => rw [hg] at hok; cases hok
    | ok g' =>
      rw [hg] at hok
      have f := updateKey_frame hg
      refine ih (h.updateKey hg) hok (by rw [f.kind]; exact hs) (by rw [f.indices]; exact hi) (by rw [f.rows]; exact hr) ?_
      rcases updateKey_ok hg with ⟨h1, rfl⟩ | ⟨sl, i', r', h1, h2, h3, h4, h5, rfl⟩
      · rcases hm with hm | hm
        · rcases List.mem_cons.1 hm with rfl | hm
          · exact absurd hk h1
          · exact .inl hm
        · exact .inr hm
      · by_cases e : sl = slot
        · subst e
          have := h.name_unique hs hk h1 hn (hparamsKey_named h2)
          subst this
          rw [hi] at h4; cases h4
          rw [hr] at h5; cases h5
          exact .inr (by simp)
        · rcases hm with hm | hm
          · rcases List.mem_cons.1 hm with rfl | hm
            · exfalso
              apply e
              have := hparamsKey_slot _ hs hn
              rw [h2] at this; cases this; rfl
            · exact .inl hm
          · exact .inr (by simp only; rw [Dict.get?_set_ne _ _ e]; exact hm)

end Radvel
