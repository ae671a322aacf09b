import Verif.Lemmas.Built

namespace Radvel

variable {α : Type}

theorem mem_freeRows (rows : List (Row α)) (i : Nat) :
    i ∈ freeRows rows ↔ ∃ r, rows[i]? = some r ∧ r.vary = true := by
  unfold freeRows
  rw [List.mem_filter, List.mem_range]
  constructor
  · rintro ⟨h1, h2⟩
    rw [List.getElem?_eq_getElem h1] at h2 ⊢
    exact ⟨_, rfl, by simpa using h2⟩
  · rintro ⟨r, h1, h2⟩
    obtain ⟨hl, _⟩ := List.getElem?_eq_some_iff.1 h1
    exact ⟨hl, by simp [h1, h2]⟩

theorem nodup_freeRows (rows : List (Row α)) : (freeRows rows).Nodup := List.nodup_range.filter _

theorem length_freeRows (rows : List (Row α)) : (freeRows rows).length = (rows.filter Row.vary).length := by
  induction rows with
  | nil => rfl
  | cons r t ih =>
    unfold freeRows at ih ⊢
    rw [List.length_cons, List.range_succ_eq_map, List.filter_cons, List.filter_map, List.filter_cons]
    have hc : ((fun i => ((r :: t)[i]?.map Row.vary).getD false) ∘ Nat.succ) =
        (fun i => (t[i]?.map Row.vary).getD false) := by
      funext i; simp
    rw [hc]
    simp only [List.getElem?_cons_zero, Option.map_some, Option.getD_some]
    split
    · simp [ih]
    · simp [ih]

theorem freeRows_congr (rows rows' : List (Row α)) (hl : rows'.length = rows.length)
    (h : ∀ (i : Nat) r, rows[i]? = some r → ∃ r', rows'[i]? = some r' ∧ r'.vary = r.vary) :
    freeRows rows' = freeRows rows := by
  unfold freeRows
  rw [hl]
  apply List.filter_congr
  intro i hi
  rw [List.mem_range] at hi
  obtain ⟨r', h1, h2⟩ := h i rows[i] (List.getElem?_eq_getElem hi)
  rw [h1, List.getElem?_eq_getElem hi]
  simp [h2]

/-- `rows'` is `rows` up to the values. -/
def SameFlags (rows rows' : List (Row α)) : Prop :=
  rows'.length = rows.length ∧
  ∀ (i : Nat) r, rows[i]? = some r → ∃ r', rows'[i]? = some r' ∧ r'.vary = r.vary ∧ r'.scale = r.scale ∧ r'.linear = r.linear

theorem SameFlags.refl (rows : List (Row α)) : SameFlags rows rows := ⟨rfl, fun _ r h => ⟨r, h, rfl, rfl, rfl⟩⟩

theorem SameFlags.trans {a b c : List (Row α)} (h : SameFlags a b) (h' : SameFlags b c) : SameFlags a c := by
  refine ⟨h'.1.trans h.1, ?_⟩
  intro i r hr
  obtain ⟨r1, a1, a2, a3, a4⟩ := h.2 i r hr
  obtain ⟨r2, b1, b2, b3, b4⟩ := h'.2 i r1 a1
  exact ⟨r2, b1, b2.trans a2, b3.trans a3, b4.trans a4⟩

theorem SameFlags.set (rows : List (Row α)) (i : Nat) (r : Row α) (hr : rows[i]? = some r) (x : α) :
    SameFlags rows (rows.set i { r with value := x }) := by
  refine ⟨by simp, ?_⟩
  intro j r' hr'
  by_cases hij : i = j
  · subst hij
    rw [hr] at hr'; cases hr'
    have hl := (List.getElem?_eq_some_iff.1 hr).1
    exact ⟨{ r with value := x }, by simp [hl], rfl, rfl, rfl⟩
  · exact ⟨r', by simp [hij, hr'], rfl, rfl, rfl⟩

theorem SameFlags.freeRows {a b : List (Row α)} (h : SameFlags a b) : freeRows b = freeRows a :=
  freeRows_congr a b h.1 (fun i r hr => by obtain ⟨r', h1, h2, _⟩ := h.2 i r hr; exact ⟨r', h1, h2⟩)

theorem writeVals_flags (is : List Nat) (xs : List α) (rows : List (Row α)) :
    SameFlags rows (writeVals is xs rows).1 ∧ ∀ i : Nat, i ∉ is → (writeVals is xs rows).1[i]? = rows[i]? := by
  induction is generalizing xs rows with
  | nil => cases xs <;> exact ⟨SameFlags.refl _, fun _ _ => rfl⟩
  | cons i t ih =>
    cases xs with
    | nil => exact ⟨SameFlags.refl _, fun _ _ => rfl⟩
    | cons x xs =>
      simp only [writeVals]
      cases hr : rows[i]? with
      | none => exact ⟨SameFlags.refl _, fun _ _ => rfl⟩
      | some r =>
        simp only
        obtain ⟨h1, h2⟩ := ih xs (rows.set i { r with value := x })
        refine ⟨(SameFlags.set rows i r hr x).trans h1, ?_⟩
        intro j hj
        rw [List.mem_cons, not_or] at hj
        rw [h2 j hj.2]
        simp [Ne.symm hj.1]

theorem writeVals_ok (is : List Nat) (xs : List α) (rows : List (Row α)) (hn : is.Nodup)
    (hb : ∀ i ∈ is, i < rows.length) (hl : xs.length = is.length) :
    (writeVals is xs rows).2 = none ∧
    ∀ j i : Nat, is[j]? = some i → ∃ r x, rows[i]? = some r ∧ xs[j]? = some x ∧
      (writeVals is xs rows).1[i]? = some { r with value := x } := by
  induction is generalizing xs rows with
  | nil =>
    have : xs = [] := by simpa using hl
    subst this
    exact ⟨rfl, by simp⟩
  | cons i t ih =>
    cases xs with
    | nil => simp at hl
    | cons x xs =>
      rw [List.nodup_cons] at hn
      have hi : i < rows.length := hb i (by simp)
      have hr : rows[i]? = some rows[i] := List.getElem?_eq_getElem hi
      simp only [writeVals, hr]
      obtain ⟨h1, h2⟩ := ih xs (rows.set i { rows[i] with value := x }) hn.2
        (fun j hj => by simpa using hb j (List.mem_cons_of_mem _ hj)) (by simpa using hl)
      refine ⟨h1, ?_⟩
      intro j k hk
      cases j with
      | zero =>
        simp at hk; subst hk
        refine ⟨rows[i], x, hr, by simp, ?_⟩
        rw [(writeVals_flags t xs _).2 i hn.1]
        simp [hi]
      | succ j =>
        simp at hk
        obtain ⟨r, y, a1, a2, a3⟩ := h2 j k hk
        have hne : i ≠ k := by
          rintro rfl
          exact hn.1 (List.mem_of_getElem? hk)
        refine ⟨r, y, ?_, by simpa using a2, a3⟩
        simpa [hne] using a1

theorem writeVals_bad (is : List Nat) (xs : List α) (rows : List (Row α)) (hl : xs.length ≠ is.length) :
    (writeVals is xs rows).2 ≠ none := by
  induction is generalizing xs rows with
  | nil =>
    cases xs with
    | nil => simp at hl
    | cons x xs => simp [writeVals]
  | cons i t ih =>
    cases xs with
    | nil => simp [writeVals]
    | cons x xs =>
      simp only [writeVals]
      cases hr : rows[i]? with
      | none => simp
      | some r => exact ih xs _ (by simpa using hl)

theorem readVals_ok (rows : List (Row α)) (is : List Nat) (hb : ∀ i ∈ is, i < rows.length) :
    ∃ vs, readVals rows is = .ok vs ∧ vs.length = is.length ∧
      ∀ j i : Nat, is[j]? = some i → ∃ r, rows[i]? = some r ∧ vs[j]? = some r.value := by
  induction is with
  | nil => exact ⟨[], rfl, rfl, by simp⟩
  | cons i t ih =>
    obtain ⟨vs, h1, h2, h3⟩ := ih (fun j hj => hb j (List.mem_cons_of_mem _ hj))
    have hi : i < rows.length := hb i (by simp)
    have hr : rows[i]? = some rows[i] := List.getElem?_eq_getElem hi
    refine ⟨rows[i].value :: vs, by simp only [readVals, hr, h1], by simp [h2], ?_⟩
    intro j k hk
    cases j with
    | zero => simp at hk; subst hk; exact ⟨_, hr, by simp⟩
    | succ j => simp at hk; obtain ⟨r, a, b⟩ := h3 j k hk; exact ⟨r, a, by simpa using b⟩

theorem readNames_ok (names : List Key) (is : List Nat) (hb : ∀ i ∈ is, i < names.length) :
    ∃ vs, readNames names is = .ok vs ∧ vs.length = is.length ∧
      ∀ j i : Nat, is[j]? = some i → vs[j]? = names[i]? := by
  induction is with
  | nil => exact ⟨[], rfl, rfl, by simp⟩
  | cons i t ih =>
    obtain ⟨vs, h1, h2, h3⟩ := ih (fun j hj => hb j (List.mem_cons_of_mem _ hj))
    have hi : i < names.length := hb i (by simp)
    have hr : names[i]? = some names[i] := List.getElem?_eq_getElem hi
    refine ⟨names[i] :: vs, by simp only [readNames, hr, h1], by simp [h2], ?_⟩
    intro j k hk
    cases j with
    | zero => simp at hk; subst hk; simp
    | succ j => simp at hk; simpa using h3 j k hk

theorem freeRows_lt (rows : List (Row α)) : ∀ i ∈ freeRows rows, i < rows.length := by
  intro i hi
  obtain ⟨r, h, _⟩ := (mem_freeRows rows i).1 hi
  exact (List.getElem?_eq_some_iff.1 h).1

theorem Built.namesOk [Zero α] {s : VState α} (h : Built s) : FreshNames s := by
  induction h with
  | model p s h hs =>
    obtain ⟨s', h1, h2, h3, _⟩ := h.model
    rw [h1] at hs; cases hs; exact h3
  | like s s' extra decorr h hk hs _ =>
    obtain ⟨s2, h1, h2, h3, _⟩ := likelihood_fresh h.inv.1 extra decorr hk (by rw [h.inv.2]; simp)
    rw [h1] at hs; cases hs; exact h3
  | edit s k v h hk hv ih =>
    have hrel : ∀ x, IdxInv.Rel ({ s with params := s.params.setItem k v } : VState α) x ↔ IdxInv.Rel s x := by
      intro x
      unfold IdxInv.Rel
      show x ∈ (s.params.items.set k v).keys ∨ _ ↔ _
      rw [Dict.mem_keys_set]
      constructor
      · rintro ((rfl | h) | h)
        · exact hk
        · exact Or.inl h
        · exact Or.inr h
      · rintro (h | h)
        · exact Or.inl (Or.inr h)
        · exact Or.inr h
    exact ⟨ih.len, fun x i hx hi => ih.fwd x i ((hrel x).1 hx) hi, fun i x hx => ⟨(hrel x).2 (ih.bwd i x hx).1, (ih.bwd i x hx).2⟩⟩
  | write s rows h hl ih => exact ⟨ih.len.trans hl.symm, ih.fwd, ih.bwd⟩
  | toVector s s' h hs ih =>
    obtain ⟨s2, h1, h2, h3, h4, h5, h6⟩ := sync_fresh h.inv.1 h.inv.2
    rw [h1] at hs; cases hs
    refine ⟨by rw [h5, h6]; exact ih.len, ?_, ?_⟩
    · unfold IdxInv.Rel; rw [h3, h4, h5]; exact ih.fwd
    · unfold IdxInv.Rel; rw [h3, h4, h5]; exact ih.bwd
  | toDict s s' h hs ih =>
    obtain ⟨s2, h1, h2, h3, h4, h5, _⟩ := toDict_spec h.inv.1 h.inv.2
    rw [h1] at hs; cases hs
    refine ⟨by rw [h4, h3]; exact ih.len, ?_, ?_⟩
    · unfold IdxInv.Rel; rw [h5, h2, h4]; exact ih.fwd
    · unfold IdxInv.Rel; rw [h5, h2, h4]; exact ih.bwd

end Radvel
