import Verif.Spec.FileModel
import Verif.Lemmas.Setup
import Verif.Props.Setup
import Verif.Props.Draw
import Verif.Props.History
import Verif.Props.Posterior

/-! Lemmas for C154. -/

namespace Radvel

theorem ofInst_eq : Key.ofInst = Key.isInst := by
  funext k; cases k <;> rfl

/-! ### the state is the one of the file -/

theorem init_inv {p : Params ℝ} {s : VState ℝ} (h : VState.init p = .ok s) : s.dictToVector = .ok s ∧ s.vectorNames = .ok s := by
  unfold VState.init at h
  rcases h1 : VState.dictToVector ({ params := p, indices := initIndexDict p, rows := [], names := [] } : VState ℝ) with e | s1
  · rw [h1] at h; cases h
  · rw [h1] at h
    simp only at h
    unfold VState.dictToVector at h1
    simp only at h1
    rcases h2 : fillRows (initIndexDict p) p.items (List.replicate (vectorSize p.items) Row.zero) with e | rows
    · rw [h2] at h1; cases h1
    · rw [h2] at h1
      simp only [Except.ok.injEq] at h1
      subst h1
      unfold VState.vectorNames at h
      simp only at h
      rcases h3 : fillNames (initIndexDict p) p.items.keys (List.replicate (p.items.length + 2) none) with e | ns
      · rw [h3] at h; cases h
      · rw [h3] at h
        simp only at h
        rcases h4 : nameExtra (initIndexDict p) (p.items.has .dvdt) .dvdt ns with e | ns'
        · rw [h4] at h; cases h
        · rw [h4] at h
          simp only at h
          rcases h5 : nameExtra (initIndexDict p) (p.items.has .curv) .curv ns' with e | ns''
          · rw [h5] at h; cases h
          · rw [h5] at h
            simp only [Except.ok.injEq] at h
            subst h
            constructor
            · unfold VState.dictToVector
              simp only [h2]
            · unfold VState.vectorNames
              simp only [h3, h4, h5]

theorem addExtra_same {s : VState ℝ} {n : Nat} {k : Key} (h1 : k ∈ s.params.items.keys) (h2 : k ∈ s.indices.keys) : addExtra (s, n) k = (s, n) := by
  unfold addExtra
  simp only
  rw [if_pos ((Dict.has_iff _ _).2 h1), if_pos ((Dict.has_iff _ _).2 h2)]

theorem addExtras_same {s : VState ℝ} {n : Nat} : ∀ ks : List Key, (∀ k ∈ ks, k ∈ s.params.items.keys ∧ k ∈ s.indices.keys) → ks.foldl addExtra (s, n) = (s, n)
  | [], _ => rfl
  | k :: t, h => by
    rw [List.foldl_cons, addExtra_same (h k (by simp)).1 (h k (by simp)).2]
    exact addExtras_same t (fun x hx => h x (by simp [hx]))

theorem addLikelihood_same {p : Params ℝ} {s : VState ℝ} (hu : UserParams p) (h : VState.init p = .ok s) (ks : List Key) (hk : ∀ k ∈ ks, k ∈ p.items.keys) :
    s.addLikelihood ks [] = .ok s := by
  obtain ⟨s', a1, a2, -, a4, -⟩ := hu.model
  rw [h] at a1; cases a1
  obtain ⟨d1, d2⟩ := init_inv h
  unfold VState.addLikelihood
  rw [List.append_nil, addExtras_same ks]
  · simp only [d1, d2]
  · intro k hk'
    refine ⟨by rw [a4]; exact hk k hk', ?_⟩
    obtain ⟨i, hi⟩ := a2.inv.indexed_of_not_mem a2.ui (Or.inl (by rw [a4]; exact hk k hk'))
    exact Dict.mem_keys_of_get? _ hi

/-- Making a likelihood leaves the model of a file as it is. -/
theorem newLike_same {p : Params ℝ} {s : VState ℝ} (hu : UserParams p) (h : VState.init p = .ok s) (obs : List Obs) (i : String)
    (hg : Key.inst .gamma ("_" ++ i) ∈ p.items.keys) (hj : Key.inst .jit ("_" ++ i) ∈ p.items.keys) :
    ∃ L, RVLike.new s obs ("_" ++ i) [] [] = .ok (s, L) ∧ L.obs = obs ∧ L.suffix = "_" ++ i ∧ L.decParams = [] := by
  obtain ⟨s', a1, a2, -, a4, -⟩ := hu.model
  rw [h] at a1; cases a1
  obtain ⟨a, ha⟩ := a2.inv.indexed_of_not_mem a2.ui (Or.inl (by rw [a4]; exact hg))
  obtain ⟨b, hb⟩ := a2.inv.indexed_of_not_mem a2.ui (Or.inl (by rw [a4]; exact hj))
  refine ⟨{ suffix := "_" ++ i, obs := obs, decVars := [], decParams := [], gammaIdx := a, jitIdx := b }, ?_, rfl, rfl, rfl⟩
  unfold RVLike.new
  simp only [List.map_nil]
  rw [addLikelihood_same hu h _ (by simp [hg, hj])]
  simp only [ha, hb]

theorem Dict.mem_set' {κ ν : Type} [DecidableEq κ] {d : Dict κ ν} {k : κ} {v : ν} {x : κ × ν} (h : x ∈ d.set k v) : x ∈ d ∨ x = (k, v) := by
  induction d with
  | nil => right; simpa [Dict.set] using h
  | cons a t ih =>
    obtain ⟨b, c⟩ := a
    unfold Dict.set at h
    split at h
    · rcases List.mem_cons.1 h with h | h
      · exact .inr h
      · exact .inl (List.mem_cons_of_mem _ h)
    · rcases List.mem_cons.1 h with h | h
      · exact .inl (by rw [h]; exact List.mem_cons_self)
      · rcases ih h with h | h
        · exact .inl (List.mem_cons_of_mem _ h)
        · exact .inr h

/-- A likelihood of the file. -/
def FileLike (P : SetupFile) (s : VState ℝ) (i : String) (L : RVLike) : Prop :=
  RVLike.new s ((P.rowsOf i).map DataRow.obs) ("_" ++ i) [] [] = .ok (s, L) ∧ L.obs = (P.rowsOf i).map DataRow.obs ∧ L.suffix = "_" ++ i ∧ L.decParams = []

theorem addInst_same {dflt : ℝ} {P : SetupFile} {s : VState ℝ} (hu : UserParams P.params) (hs : VState.init P.params = .ok s) (hh : P.hnames = none)
    {acc r : VState ℝ × Dict String InstLike} {i : String} (h : P.addInst [] (copyParams dflt P.params) acc i = .ok r) (ha : acc.1 = s)
    (hl : ∀ j M, (j, M) ∈ acc.2 → ∃ L, M = .rv L ∧ FileLike P s j L) :
    r.1 = s ∧ (∀ j M, (j, M) ∈ r.2 → ∃ L, M = .rv L ∧ FileLike P s j L) ∧ Key.inst .gamma ("_" ++ i) ∈ P.params.items.keys ∧ Key.inst .jit ("_" ++ i) ∈ P.params.items.keys := by
  obtain ⟨-, k1, k2, -⟩ := addInst_needs dflt hu.good.nodup h
  obtain ⟨-, -, s1, M, s2, b1, b2, b3, b4⟩ := addInst_inv h
  obtain ⟨L, c1, c2, c3, c4⟩ := newLike_same hu hs ((P.rowsOf i).map DataRow.obs) i k1 k2
  have hstart := start_inv hu [] hs
  unfold SetupFile.newLike at b1
  simp only [hh, ha, List.map_nil, c1] at b1
  simp only [Except.ok.injEq, Prod.mk.injEq] at b1
  obtain ⟨rfl, rfl⟩ := b1
  rw [resetPar_same hstart hu.good.nodup, if_pos k1] at b2
  cases b2
  rw [resetPar_same hstart hu.good.nodup, if_pos k2] at b3
  have b3' := Except.ok.inj b3
  refine ⟨b3'.symm, ?_, k1, k2⟩
  intro j M hm
  rw [b4] at hm
  rcases Dict.mem_set' hm with hm | hm
  · exact hl j M hm
  · cases hm
    exact ⟨L, rfl, c1, c2, c3, c4⟩

theorem instLoop_same {dflt : ℝ} {P : SetupFile} {s : VState ℝ} (hu : UserParams P.params) (hs : VState.init P.params = .ok s) (hh : P.hnames = none) :
    ∀ (l : List String) (acc r : VState ℝ × Dict String InstLike), l.foldlM (P.addInst [] (copyParams dflt P.params)) acc = .ok r → acc.1 = s →
      (∀ j M, (j, M) ∈ acc.2 → ∃ L, M = .rv L ∧ FileLike P s j L) →
      r.1 = s ∧ (∀ j M, (j, M) ∈ r.2 → ∃ L, M = .rv L ∧ FileLike P s j L) ∧ ∀ i ∈ l, Key.inst .gamma ("_" ++ i) ∈ P.params.items.keys ∧ Key.inst .jit ("_" ++ i) ∈ P.params.items.keys := by
  intro l
  induction l with
  | nil => intro acc r h ha hl; cases h; exact ⟨ha, hl, by simp⟩
  | cons a t ih =>
    intro acc r h ha hl
    change (P.addInst [] (copyParams dflt P.params) acc a >>= _) = _ at h
    rcases h1 : P.addInst [] (copyParams dflt P.params) acc a with e | acc'
    · rw [h1] at h; cases h
    · rw [h1] at h
      obtain ⟨b1, b2, b3, b4⟩ := addInst_same hu hs hh h1 ha hl
      obtain ⟨c1, c2, c3⟩ := ih acc' r h b1 b2
      refine ⟨c1, c2, fun i hi => ?_⟩
      rcases List.mem_cons.1 hi with rfl | hi
      · exact ⟨b3, b4⟩
      · exact c3 i hi

theorem fileLikes_list {P : SetupFile} {s : VState ℝ} : ∀ (d : Dict String InstLike), (∀ j M, (j, M) ∈ d → ∃ L, M = .rv L ∧ FileLike P s j L) →
    ∃ Ls : List RVLike, d.map Prod.snd = Ls.map InstLike.rv ∧ List.Forall₂ (fun i L => FileLike P s i L) (d.map Prod.fst) Ls
  | [], _ => ⟨[], rfl, .nil⟩
  | (i, M) :: t, h => by
    obtain ⟨L, h1, h2⟩ := h i M List.mem_cons_self
    obtain ⟨Ls, h3, h4⟩ := fileLikes_list t (fun j M hm => h j M (List.mem_cons_of_mem _ hm))
    exact ⟨L :: Ls, by simp [h1, h3], .cons h2 h4⟩

theorem fileLikes_likes {P : SetupFile} {s : VState ℝ} (hb : Built s) : ∀ (is : List String) (Ls : List RVLike), List.Forall₂ (fun i L => FileLike P s i L) is Ls → Likes s Ls := by
  intro is Ls h
  have key : ∀ (is : List String) (Ls : List RVLike), List.Forall₂ (fun i L => FileLike P s i L) is Ls → ∀ done, Likes s done → Likes s (done ++ Ls) := by
    intro is Ls h
    induction h with
    | nil => intro done hd; simpa using hd
    | cons h1 _ ih =>
      intro done hd
      have := ih _ (Likes.like s s done _ hd _ _ _ _ h1.1)
      simpa using this
  simpa using key is Ls h [] (.start s hb)

/-- What `initialize` makes of a file without GPs and decorrelation: the model of its parameters and one likelihood for every instrument. -/
theorem initialize_white {dflt : ℝ} {P : SetupFile} (hu : UserParams P.params) (hj : ∀ k, Key.inst .logjit k ∉ P.params.items.keys) (hh : P.hnames = none) {r : SetupPost}
    (h : P.initialize dflt false = .ok r) :
    VState.init P.params = .ok r.st ∧ (∀ i ∈ P.instnames, Key.inst .gamma ("_" ++ i) ∈ P.params.items.keys ∧ Key.inst .jit ("_" ++ i) ∈ P.params.items.keys) ∧
      ∃ Ls : List RVLike, r.likes.map Prod.snd = Ls.map InstLike.rv ∧ List.Forall₂ (fun i L => FileLike P r.st i L) (firsts P.instnames) Ls ∧ Likes r.st Ls := by
  obtain ⟨-, vars, items, s, hv, hi, hs, hl, -⟩ := initialize_inv h
  rw [convertLogjit_none _ _ hj] at hi
  cases hi
  simp only [SetupFile.decorr, Bool.false_eq_true, if_false] at hv
  cases hv
  obtain ⟨a1, a2, a3⟩ := instLoop_same hu hs hh P.instnames (s, []) _ hl rfl (by simp)
  simp only at a1 a2
  obtain ⟨-, -, l3⟩ := instLoop_holds _ _ _ hl (by simp) (by simp [Dict.keys])
  have l4 : r.likes.map Prod.fst = firsts P.instnames := by
    have : r.likes.keys = _ := l3
    simpa [Dict.keys] using this
  obtain ⟨Ls, b1, b2⟩ := fileLikes_list r.likes a2
  rw [l4] at b2
  rw [a1]
  exact ⟨hs, a3, Ls, b1, b2, fileLikes_likes (.model _ _ hu hs) _ _ b2⟩

/-! ### the file with other values -/

theorem withFree_keys (p : Params ℝ) (xs : List ℝ) : (withFree p xs).items.keys = p.items.keys := by
  unfold withFree Dict.keys
  simp

theorem map_get? {ν : Type} (d : Dict Key ν) (f : Key → ν → ν) (k : Key) : Dict.get? (d.map fun x => (x.1, f x.1 x.2)) k = (d.get? k).map (f k) := by
  induction d with
  | nil => rfl
  | cons a t ih =>
    obtain ⟨b, c⟩ := a
    rw [List.map_cons]
    unfold Dict.get?
    by_cases h : b = k
    · simp [h]
    · simpa [h] using ih

theorem withFree_get? (p : Params ℝ) (xs : List ℝ) (k : Key) :
    (withFree p xs).items.get? k = (p.items.get? k).map fun q => { q with value := valueAt p xs k } :=
  map_get? p.items (fun k q => { q with value := valueAt p xs k }) k

/-- The value of an existing parameter replaced. -/
noncomputable def storeValue (f : Key → ℝ) (p : Params ℝ) (k : Key) : Params ℝ :=
  match p.items.get? k with
  | some q => p.setItem k { q with value := f k }
  | none => p

theorem storeValue_keys (f : Key → ℝ) (p : Params ℝ) (k : Key) : (storeValue f p k).items.keys = p.items.keys := by
  unfold storeValue
  split
  · next q hq => exact Dict.keys_set_of_mem _ _ (Dict.mem_keys_of_get? _ hq)
  · rfl

theorem storeValue_get? (f : Key → ℝ) (p : Params ℝ) (k k' : Key) :
    (storeValue f p k).items.get? k' = if k' = k then (p.items.get? k').map fun q => { q with value := f k' } else p.items.get? k' := by
  unfold storeValue
  split
  · next q hq =>
    simp only [Params.setItem]
    rw [Dict.get?_set]
    by_cases h : k' = k
    · subst h; simp [hq]
    · simp [h, Ne.symm h]
  · next hq =>
    by_cases h : k' = k
    · subst h; simp [hq]
    · simp [h]

theorem storeValues (f : Key → ℝ) : ∀ (ks : List Key) (p : Params ℝ), UserParams p → UserParams (ks.foldl (storeValue f) p) ∧ (ks.foldl (storeValue f) p).items.keys = p.items.keys ∧
    (∀ k, (ks.foldl (storeValue f) p).items.get? k = if k ∈ ks then (p.items.get? k).map fun q => { q with value := f k } else p.items.get? k) ∧
    (ks.foldl (storeValue f) p) = { p with items := (ks.foldl (storeValue f) p).items }
  | [], p, h => ⟨h, rfl, by simp, rfl⟩
  | a :: t, p, h => by
    have h1 : UserParams (storeValue f p a) := by
      unfold storeValue
      split
      · next q hq => exact .set p a _ h (.inl (Dict.mem_keys_of_get? _ hq)) (h.good.noblank a q hq)
      · exact h
    have h2 : storeValue f p a = { p with items := (storeValue f p a).items } := by
      unfold storeValue
      split <;> rfl
    obtain ⟨b1, b2, b3, b4⟩ := storeValues f t _ h1
    rw [List.foldl_cons]
    refine ⟨b1, b2.trans (storeValue_keys _ _ _), fun k => ?_, ?_⟩
    · rw [b3, storeValue_get?]
      by_cases hka : k = a
      · subst hka
        by_cases hk : k ∈ t
        · simp only [hk, if_true, List.mem_cons, true_or]
          cases p.items.get? k <;> rfl
        · simp [hk]
      · simp [hka]
    · rw [b4, h2]

/-- A file with other values is again a file. -/
theorem withFree_user {p : Params ℝ} (h : UserParams p) (xs : List ℝ) : UserParams (withFree p xs) := by
  obtain ⟨b1, b2, b3, b4⟩ := storeValues (valueAt p xs) p.items.keys p h
  have : withFree p xs = p.items.keys.foldl (storeValue (valueAt p xs)) p := by
    rw [b4]
    unfold withFree
    congr 1
    refine Dict.ext_of_keys _ _ ?_ ?_ ?_
    · have := withFree_keys p xs
      unfold withFree at this
      rw [this]; exact h.good.nodup
    · rw [b2]
      exact withFree_keys p xs
    · intro k hk
      rw [b3]
      have e1 := withFree_get? p xs k
      have e2 := withFree_keys p xs
      unfold withFree at e1 e2
      rw [e1]
      rw [e2] at hk
      rw [if_pos hk]
  rw [this]
  exact b1

/-! ### the order -/

theorem words_offset (b : BasisName) (hb : b ≠ .perTcTpEWK) : b.words.length = 5 ∧ ∀ j : Nat, j < 5 → (b.words[j]?.map PName.offset) = some j := by
  cases b <;> first | exact absurd rfl hb | exact ⟨rfl, by decide⟩

theorem planetKeys_at (w : List PName) (hl : w.length = 5) (ho : ∀ j : Nat, j < 5 → (w[j]?.map PName.offset) = some j) (N : Nat) :
    ((List.range N).flatMap fun i => w.map fun x => Key.orb x (i + 1)).length = 5 * N ∧
    ∀ (a : Nat) k, ((List.range N).flatMap fun i => w.map fun x => Key.orb x (i + 1))[a]? = some k → ∃ i x, i < N ∧ k = Key.orb x (i + 1) ∧ x ∈ w ∧ a = 5 * i + x.offset := by
  induction N with
  | zero => simp
  | succ N ih =>
    rw [List.range_succ, List.flatMap_append]
    obtain ⟨h1, h2⟩ := ih
    refine ⟨by simp only [List.length_append, h1, List.flatMap_cons, List.flatMap_nil, List.length_map, hl, List.append_nil]; ring, ?_⟩
    intro a k hk
    by_cases ha : a < 5 * N
    · rw [List.getElem?_append_left (by rw [h1]; exact ha)] at hk
      obtain ⟨i, x, c1, c2, c3⟩ := h2 a k hk
      exact ⟨i, x, by omega, c2, c3⟩
    · rw [List.getElem?_append_right (by rw [h1]; omega), h1] at hk
      simp only [List.flatMap_cons, List.flatMap_nil, List.append_nil, List.getElem?_map, Option.map_eq_some_iff] at hk
      obtain ⟨x, hx, rfl⟩ := hk
      have hlt : a - 5 * N < 5 := by have := (List.getElem?_eq_some_iff.1 hx).1; omega
      have := ho _ hlt
      rw [hx] at this
      simp only [Option.map_some, Option.some.injEq] at this
      exact ⟨N, x, by omega, rfl, List.mem_of_getElem? hx, by omega⟩

theorem fileOrder_index {p : Params ℝ} (hu : UserParams p) (a : Nat) (k : Key) (h : (fileOrder p)[a]? = some k) : (initIndexDict p).get? k = some a := by
  obtain ⟨w1, w2⟩ := words_offset p.basis hu.good.five
  obtain ⟨l1, l2⟩ := planetKeys_at p.basis.words w1 w2 p.numPlanets
  rw [initIndexDict_get p hu.good.nodup]
  unfold fileOrder at h
  rw [List.append_assoc] at h
  by_cases ha : a < 5 * p.numPlanets
  · rw [List.getElem?_append_left (by rw [l1]; exact ha)] at h
    obtain ⟨i, x, c1, rfl, -, c3⟩ := l2 a k h
    simp only
    rw [if_pos (by omega)]
    simp [c3]
  · rw [List.getElem?_append_right (by rw [l1]; omega), l1] at h
    rcases hb : a - 5 * p.numPlanets with _ | _ | n
    · rw [hb] at h; simp at h; subst h; simp only; congr 1; omega
    · rw [hb] at h; simp at h; subst h; simp only; congr 1; omega
    · rw [hb] at h
      rw [show [Key.dvdt, Key.curv] ++ p.items.keys.filter Key.ofInst = Key.dvdt :: Key.curv :: p.items.keys.filter Key.ofInst from rfl, List.getElem?_cons_succ, List.getElem?_cons_succ, ofInst_eq] at h
      have hm := List.mem_filter.1 (List.mem_of_getElem? h)
      cases k with
      | inst g r =>
        simp only
        rw [if_pos hm.1]
        have hnd : (p.items.keys.filter Key.isInst).Nodup := hu.good.nodup.filter _
        obtain ⟨hlt, he⟩ := List.getElem?_eq_some_iff.1 h
        rw [← he, hnd.idxOf_getElem]
        congr 1
        omega
      | _ => simp [Key.isInst] at hm

theorem fileOrder_length {p : Params ℝ} (hu : UserParams p) : (fileOrder p).length = vectorSize p.items := by
  obtain ⟨w1, w2⟩ := words_offset p.basis hu.good.five
  rw [hu.good.count]
  unfold fileOrder
  simp only [List.length_append, (planetKeys_at p.basis.words w1 w2 p.numPlanets).1, ofInst_eq]
  simp

theorem fileOrder_nodup {p : Params ℝ} (hu : UserParams p) : (fileOrder p).Nodup := by
  rw [List.nodup_iff_getElem?_ne_getElem?]
  intro i j hij hj h
  have h1 := List.getElem?_eq_getElem hj
  have e1 := fileOrder_index hu j _ h1
  rw [← h] at h1
  have e2 := fileOrder_index hu i _ h1
  rw [e1] at e2
  cases e2
  omega

theorem mem_fileOrder {p : Params ℝ} (hu : UserParams p) {k : Key} (hk : k ∈ p.items.keys) : k ∈ fileOrder p := by
  unfold fileOrder
  cases k with
  | orb x m =>
    obtain ⟨h1, h2, h3⟩ := (hu.good.orb x m).1 hk
    simp only [List.mem_append, List.mem_flatMap, List.mem_range, List.mem_map]
    exact .inl (.inl ⟨m - 1, by omega, x, h1, by congr 1; omega⟩)
  | dvdt => simp
  | curv => simp
  | inst g r => simp [hk, Key.ofInst]
  | other s => exact absurd hk (hu.good.noother s)

/-- The rows of the model of a file, in order. -/
theorem file_rows {p : Params ℝ} (hu : UserParams p) {s : VState ℝ} (hs : VState.init p = .ok s) : s.rows.length = (fileOrder p).length ∧
    ∀ (a : Nat) k, (fileOrder p)[a]? = some k → s.rows[a]? = some (match p.items.get? k with | some q => mkRow q | none => Row.zero) := by
  obtain ⟨s', a1, a2, a3, a4, a5⟩ := hu.model
  rw [hs] at a1; cases a1
  have hlen : s.rows.length = (fileOrder p).length := by
    have h1 := a2.inv.count
    rw [a2.ui] at h1
    rw [fileOrder_length hu, ← a4]
    simp at h1
    omega
  refine ⟨hlen, fun a k hk => ?_⟩
  have hi := fileOrder_index hu a k hk
  rcases hq : p.items.get? k with _ | q
  · simp only
    apply a2.blank
    · rw [hlen]; exact (List.getElem?_eq_some_iff.1 hk).1
    · intro k' hk' he
      rw [a4] at hk'
      rw [a5] at he
      obtain ⟨b, hb⟩ := List.getElem?_of_mem (mem_fileOrder hu hk')
      have := fileOrder_index hu b k' hb
      rw [he] at this
      cases this
      rw [hk] at hb
      cases hb
      exact (Dict.get?_eq_none_iff _ _).1 hq hk'
  · simp only
    exact a2.rows k q a (by rw [a4]; exact hq) (by rw [a5]; exact hi)

theorem filter_index {α : Type} (l : List α) (f : α → Bool) (g : Nat → Bool) (h : ∀ (i : Nat) x, l[i]? = some x → g i = f x) :
    List.Forall₂ (fun i x => l[i]? = some x) ((List.range l.length).filter g) (l.filter f) := by
  induction l using List.reverseRecOn with
  | nil => simp
  | append_singleton l a ih =>
    rw [List.length_append, List.length_singleton, List.range_succ, List.filter_append, List.filter_append]
    have h1 := ih (fun i x hx => h i x (by
      rw [List.getElem?_append_left (List.getElem?_eq_some_iff.1 hx).1]; exact hx))
    have h2 := h l.length a (by simp)
    refine List.rel_append ?_ ?_
    · refine h1.imp ?_
      intro i x hx
      rw [List.getElem?_append_left (List.getElem?_eq_some_iff.1 hx).1]; exact hx
    · by_cases hf : f a = true
      · rw [List.filter_cons_of_pos (by rw [h2]; exact hf), List.filter_cons_of_pos hf]
        exact .cons (by simp) .nil
      · rw [List.filter_cons_of_neg (by rw [h2]; exact hf), List.filter_cons_of_neg hf]
        exact .nil

theorem free_forall {p : Params ℝ} (hu : UserParams p) {s : VState ℝ} (hs : VState.init p = .ok s) :
    List.Forall₂ (fun i k => (fileOrder p)[i]? = some k) (freeRows s.rows) (freeOrder p) := by
  obtain ⟨h1, h2⟩ := file_rows hu hs
  unfold freeRows freeOrder
  rw [h1]
  refine filter_index _ _ _ ?_
  intro i k hk
  rw [h2 i k hk]
  unfold isFree
  cases p.items.get? k <;> rfl

theorem forall2_getElem? {α β : Type} {R : α → β → Prop} {l : List α} {m : List β} (h : List.Forall₂ R l m) (j : Nat) (x : α) (hx : l[j]? = some x) : ∃ y, m[j]? = some y ∧ R x y := by
  induction h generalizing j with
  | nil => simp at hx
  | cons h1 _ ih =>
    cases j with
    | zero => simp at hx; subst hx; exact ⟨_, by simp, h1⟩
    | succ j => simpa using ih j (by simpa using hx)

/-- Writing an array into the model of a file makes the rows of the file with these values. -/
theorem write_file {p : Params ℝ} (hu : UserParams p) {s s' : VState ℝ} (xs : List ℝ) (hx : xs.length = (freeOrder p).length) (hs : VState.init p = .ok s)
    (hs' : VState.init (withFree p xs) = .ok s') : writeVals (freeRows s.rows) xs s.rows = (s'.rows, none) := by
  have hff := free_forall hu hs
  have hl : xs.length = (freeRows s.rows).length := by rw [hx, hff.length_eq]
  obtain ⟨w1, w2⟩ := writeVals_ok (freeRows s.rows) xs s.rows (nodup_freeRows _) (freeRows_lt _) hl
  obtain ⟨w3, w4⟩ := writeVals_flags (freeRows s.rows) xs s.rows
  obtain ⟨r1, r2⟩ := file_rows hu hs
  have hu' := withFree_user hu xs
  obtain ⟨r1', r2'⟩ := file_rows hu' hs'
  have hord : fileOrder (withFree p xs) = fileOrder p := by
    unfold fileOrder
    rw [withFree_keys]
    rfl
  rw [hord] at r1' r2'
  refine Prod.ext ?_ w1
  apply List.ext_getElem?
  intro a
  by_cases ha : a < (fileOrder p).length
  · have hk := List.getElem?_eq_getElem ha
    have e' := r2' a _ hk
    rw [withFree_get?] at e'
    have e := r2 a _ hk
    generalize (fileOrder p)[a] = k at hk e e'
    by_cases hfr : a ∈ freeRows s.rows
    · obtain ⟨j, hj⟩ := List.getElem?_of_mem hfr
      obtain ⟨r, x, b1, b2, b3⟩ := w2 j a hj
      obtain ⟨k', c1, c2⟩ := forall2_getElem? hff j a hj
      rw [hk] at c2; cases c2
      have hfree : isFree p k = true := (List.mem_filter.1 (List.mem_of_getElem? c1)).2
      have hval : valueAt p xs k = x := by
        unfold valueAt
        rw [if_pos hfree]
        have hnd : (freeOrder p).Nodup := (fileOrder_nodup hu).filter _
        obtain ⟨hlt, he⟩ := List.getElem?_eq_some_iff.1 c1
        rw [← he, hnd.idxOf_getElem, List.getD_eq_getElem?_getD, b2]
        rfl
      rw [b3, e']
      rw [b1] at e
      have e2 := Option.some.inj e
      rcases hq : p.items.get? k with _ | q
      · unfold isFree at hfree; rw [hq] at hfree; simp at hfree
      · rw [hq] at e2
        simp only at e2
        rw [e2]
        simp [mkRow, hval]
    · rw [w4 a hfr, e, e']
      rcases hq : p.items.get? k with _ | q
      · rfl
      · have hv : isFree p k = false := by
          rw [mem_freeRows] at hfr
          push Not at hfr
          have := hfr _ e
          rw [hq] at this
          unfold isFree
          rw [hq]
          simpa [mkRow] using this
        simp [mkRow, valueAt, hv, hq]
  · rw [List.getElem?_eq_none (by rw [w3.1, r1]; omega), List.getElem?_eq_none (by rw [r1']; omega)]

/-! ### priors read the vector only -/

theorem readPar_same {s s' : VState ℝ} (h : SameVector s s') (k : Key) : readPar s' k = readPar s k := by
  unfold readPar
  rw [h.rows, h.indices]

theorem readPars_same {s s' : VState ℝ} (h : SameVector s s') : ∀ ks, readPars s' ks = readPars s ks
  | [] => rfl
  | k :: t => by simp only [readPars, readPar_same h, readPars_same h t]

theorem eccLoop_same {s s' : VState ℝ} (h : SameVector s s') (f : Bool) : ∀ l, eccLoop s' f l = eccLoop s f l
  | [] => rfl
  | (n, lim) :: t => by
    have : eccOf s' n = eccOf s n := by simp only [eccOf, readPar_same h, h.basis]
    simp only [eccLoop, this, eccLoop_same h f t]

theorem posKLoop_same {s s' : VState ℝ} (h : SameVector s s') (f : Bool) : ∀ l, posKLoop s' f l = posKLoop s f l
  | [] => rfl
  | n :: t => by
    have : ampOf s' n = ampOf s n := by simp only [ampOf, readPar_same h]
    simp only [posKLoop, this, posKLoop_same h f t]

theorem Prior.call_same {s s' : VState ℝ} (h : SameVector s s') (f : Option Bool) (p : Prior) : p.call s' f = p.call s f := by
  have ht : ∀ t n, tToPhaseVector s' t n = tToPhaseVector s t n := by
    intro t n
    simp only [tToPhaseVector, h.basis, h.planets, h.rows]
  cases p <;> simp only [Prior.call, eccCall, posKCall, secEclipseCall, readPar_same h, readPars_same h, eccLoop_same h, posKLoop_same h, ht, h.basis, h.planets, h.rows]

/-! ### the state after writing an array -/

theorem withFree_order (p : Params ℝ) (xs : List ℝ) : fileOrder (withFree p xs) = fileOrder p := by
  unfold fileOrder
  rw [withFree_keys]
  rfl

theorem written_same {p : Params ℝ} (hu : UserParams p) (xs : List ℝ) {s s' : VState ℝ} (hs : VState.init p = .ok s) (hs' : VState.init (withFree p xs) = .ok s') :
    SameVector s' { s with rows := s'.rows } := by
  obtain ⟨t, a1, a2, a3, a4, a5⟩ := hu.model
  rw [hs] at a1; cases a1
  obtain ⟨t', b1, b2, b3, b4, b5⟩ := (withFree_user hu xs).model
  rw [hs'] at b1; cases b1
  refine ⟨rfl, ?_, ?_, ?_⟩
  · simp only
    rw [a5, b5]
    unfold initIndexDict
    rw [withFree_keys]
    rfl
  · simp only; rw [a4, b4]; rfl
  · simp only; rw [a4, b4]; rfl

theorem init_row {p : Params ℝ} (hu : UserParams p) {s : VState ℝ} (hs : VState.init p = .ok s) {k : Key} {q : Parameter ℝ} (hq : p.items.get? k = some q) :
    ∃ i, s.indices.get? k = some i ∧ s.rows[i]? = some (mkRow q) := by
  obtain ⟨t, a1, a2, a3, a4, a5⟩ := hu.model
  rw [hs] at a1; cases a1
  obtain ⟨b, hb⟩ := List.getElem?_of_mem (mem_fileOrder hu (Dict.mem_keys_of_get? _ hq))
  have := (file_rows hu hs).2 b k hb
  rw [hq] at this
  exact ⟨b, by rw [a5]; exact fileOrder_index hu b k hb, this⟩

theorem withFree_read {p : Params ℝ} (hu : UserParams p) (xs : List ℝ) {s' : VState ℝ} (hs' : VState.init (withFree p xs) = .ok s') {k : Key} (hk : k ∈ p.items.keys) :
    readPar s' k = .ok (valueAt p xs k) := by
  obtain ⟨q, hq⟩ := Dict.exists_get?_of_mem _ hk
  obtain ⟨i, h1, h2⟩ := init_row (withFree_user hu xs) hs' (k := k) (q := { q with value := valueAt p xs k }) (by rw [withFree_get?, hq]; rfl)
  unfold readPar
  rw [h1]
  simp only [h2]
  rfl

theorem withFree_marginal (p : Params ℝ) (xs : List ℝ) (k : Key) : Marginalised (withFree p xs) k ↔ Marginalised p k := by
  unfold Marginalised
  rw [withFree_get?]
  cases p.items.get? k <;> simp

theorem marginal_iff {p : Params ℝ} (hu : UserParams p) {s : VState ℝ} (hs : VState.init p = .ok s) {suffix : String} {i : Nat} (hi : s.indices.get? (.inst .gamma suffix) = some i)
    (hk : Key.inst .gamma suffix ∈ p.items.keys) : AnalyticGamma s i ↔ Marginalised p (.inst .gamma suffix) := by
  obtain ⟨q, hq⟩ := Dict.exists_get?_of_mem _ hk
  obtain ⟨j, h1, h2⟩ := init_row hu hs hq
  rw [hi] at h1; cases h1
  have hv := hu.good.noblank _ _ hq
  constructor
  · rintro ⟨x, r, -, c2, c3, c4⟩
    rw [h2] at c2; cases c2
    refine ⟨q, hq, c3, ?_⟩
    rcases hc : q.vary with _ | _ | _
    · simp [mkRow, hc] at c4
    · rfl
    · exact absurd hc hv
  · rintro ⟨q', c1, c2, c3⟩
    rw [hq] at c1; cases c1
    exact ⟨suffix, _, hi, h2, c2, by simp [mkRow, c3]⟩

end Radvel
