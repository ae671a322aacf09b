import Verif.Spec.Markers
import Verif.Lemmas.Dict
import Mathlib.Data.List.Perm.Basic

/-!
# The loop of `mtelplot`, in closed form
-/

namespace Radvel

open Classical in
/-- One if the instrument takes a colour. -/
noncomputable def takes (T : Dict String Fmt) (t : String) : Nat := if NeedsColour T t then 1 else 0

/-- How many of the instruments take a colour. -/
noncomputable def takesAll (T : Dict String Fmt) : List String → Nat
  | [] => 0
  | t :: ts => takes T t + takesAll T ts

/-- The format used, when `ci` colours have been taken. -/
def fmtFor (T : Dict String Fmt) (ci : Nat) (t : String) : Fmt :=
  match T.get? t with
  | some f => if f.has "color" then f else f.set "color" (defaultColors.getD ci "")
  | none => if telfmtsDefault.has t then [] else [("color", defaultColors.getD ci "")]

/-- `telfmts` after one instrument. -/
def fmtsAfter (T : Dict String Fmt) (ci : Nat) (t : String) : Dict String Fmt :=
  match T.get? t with
  | some f => if f.has "color" then T else T.set t (fmtFor T ci t)
  | none => T

theorem takesAll_cons (T : Dict String Fmt) (t : String) (ts : List String) : takesAll T (t :: ts) = takes T t + takesAll T ts := rfl

theorem defaultColors_length : defaultColors.length = 9 := rfl

theorem defaultColors_nodup : defaultColors.Nodup := by decide +kernel

theorem defaultColors_get {ci : Nat} (h : ci < 9) : defaultColors[ci]? = some (defaultColors.getD ci "") := by
  rw [List.getD_eq_getElem?_getD, List.getElem?_eq_getElem (by rw [defaultColors_length]; exact h)]
  rfl

theorem defaultColors_none {ci : Nat} (h : 9 ≤ ci) : defaultColors[ci]? = none :=
  List.getElem?_eq_none (by rw [defaultColors_length]; exact h)

theorem defaultColors_inj {i j : Nat} (hi : i < 9) (hj : j < 9) (h : defaultColors.getD i "" = defaultColors.getD j "") : i = j := by
  have e : defaultColors[i]? = defaultColors[j]? := by rw [defaultColors_get hi, defaultColors_get hj, h]
  exact (List.getElem?_inj (by rw [defaultColors_length]; exact hi) defaultColors_nodup).1 e

open Classical in
theorem telFormat_eq (T : Dict String Fmt) (ci : Nat) (t : String) :
    telFormat T ci t = if NeedsColour T t ∧ 9 ≤ ci then .error .indexError else .ok (fmtFor T ci t, fmtsAfter T ci t, ci + takes T t) := by
  unfold telFormat fmtFor fmtsAfter takes NeedsColour EntryNoColour UnknownTel
  rcases hT : T.get? t with _ | f
  · by_cases hd : telfmtsDefault.has t
    · have hd' : ¬ telfmtsDefault.get? t = none := by
        intro h; unfold Dict.has at hd; rw [h] at hd; simp at hd
      simp [hd, hd']
    · have hd' : telfmtsDefault.get? t = none := by
        unfold Dict.has at hd; simpa using hd
      by_cases hc : 9 ≤ ci
      · simp [hd, hd', hc, defaultColors_none hc]
      · rw [defaultColors_get (by omega)]
        simp [hd, hd', hc]
  · by_cases hf : f.has "color"
    · have hf' : ¬ f.get? "color" = none := by
        intro h; unfold Dict.has at hf; rw [h] at hf; simp at hf
      simp [hf, hf']
    · have hf' : f.get? "color" = none := by
        unfold Dict.has at hf; simpa using hf
      by_cases hc : 9 ≤ ci
      · simp [hf, hf', hc, defaultColors_none hc]
      · rw [defaultColors_get (by omega)]
        have e : fmtFor T ci t = f.set "color" (defaultColors.getD ci "") := by unfold fmtFor; rw [hT]; simp [hf]
        rw [e]
        simp [hf, hf', hc]

/-- Only the instrument's own entry counts. -/
theorem needs_congr {T T' : Dict String Fmt} {t : String} (h : T'.get? t = T.get? t) : NeedsColour T' t ↔ NeedsColour T t := by
  unfold NeedsColour EntryNoColour UnknownTel; rw [h]

theorem takes_congr {T T' : Dict String Fmt} {t : String} (h : T'.get? t = T.get? t) : takes T' t = takes T t := by
  unfold takes; by_cases hN : NeedsColour T t
  · rw [if_pos hN, if_pos ((needs_congr h).2 hN)]
  · rw [if_neg hN, if_neg (fun h' => hN ((needs_congr h).1 h'))]

theorem fmtFor_congr {T T' : Dict String Fmt} {ci : Nat} {t : String} (h : T'.get? t = T.get? t) : fmtFor T' ci t = fmtFor T ci t := by
  unfold fmtFor; rw [h]

theorem fmtsAfter_ne (T : Dict String Fmt) (ci : Nat) {t u : String} (h : t ≠ u) : (fmtsAfter T ci t).get? u = T.get? u := by
  unfold fmtsAfter
  split
  · split
    · rfl
    · exact Dict.get?_set_ne T _ h
  · rfl

theorem fmtsAfter_self (T : Dict String Fmt) (ci : Nat) (t : String) : (fmtsAfter T ci t).get? t = (T.get? t).map (fun _ => fmtFor T ci t) := by
  rcases hT : T.get? t with _ | f
  · have e : fmtsAfter T ci t = T := by unfold fmtsAfter; rw [hT]
    rw [e, hT]; rfl
  · by_cases hf : f.has "color"
    · have e : fmtsAfter T ci t = T := by unfold fmtsAfter; rw [hT]; simp [hf]
      have e' : fmtFor T ci t = f := by unfold fmtFor; rw [hT]; simp [hf]
      rw [e, hT, e']; rfl
    · have e : fmtsAfter T ci t = T.set t (fmtFor T ci t) := by unfold fmtsAfter; rw [hT]; simp [hf]
      rw [e, Dict.get?_set_self]; rfl

variable {α : Type}

/-- The points of one instrument. -/
def ptsOf (data : List (String × α)) (t : String) : List α := (data.filter (fun p => decide (p.1 = t))).map Prod.snd

/-- What is drawn for the instruments `ts`, when `ci` colours have been taken. -/
noncomputable def drawAll (data : List (String × α)) (T : Dict String Fmt) : Nat → List String → List (Drawn α)
  | _, [] => []
  | ci, t :: ts => ⟨t, ptsOf data t, telplotKw t (fmtFor T ci t) none⟩ :: drawAll data T (ci + takes T t) ts

theorem drawAll_congr (data : List (String × α)) {T T' : Dict String Fmt} (ts : List String) (h : ∀ t ∈ ts, T'.get? t = T.get? t) (ci : Nat) :
    drawAll data T' ci ts = drawAll data T ci ts := by
  induction ts generalizing ci with
  | nil => rfl
  | cons t ts ih =>
    unfold drawAll
    rw [fmtFor_congr (h t (by simp)), takes_congr (h t (by simp)), ih (fun u hu => h u (by simp [hu]))]

theorem takesAll_congr {T T' : Dict String Fmt} (ts : List String) (h : ∀ t ∈ ts, T'.get? t = T.get? t) : takesAll T' ts = takesAll T ts := by
  induction ts with
  | nil => rfl
  | cons t ts ih =>
    unfold takesAll
    rw [takes_congr (h t (by simp)), ih (fun u hu => h u (by simp [hu]))]

theorem takes_le_of (T : Dict String Fmt) (t : String) : takes T t ≤ 1 := by unfold takes; split <;> omega

/-- The loop: an error exactly when the colours run out; otherwise everything is drawn, and every entry of `telfmts` that was used is the format used. -/
theorem mtel_loop (data : List (String × α)) (ts : List String) (hn : ts.Nodup) (T : Dict String Fmt) (ci : Nat) (hci : ci ≤ 9) (D : List (Drawn α)) :
    (9 < ci + takesAll T ts → ts.foldlM (mtelStep data none) ⟨T, ci, D⟩ = .error .indexError) ∧
    (ci + takesAll T ts ≤ 9 → ∃ T', ts.foldlM (mtelStep data none) ⟨T, ci, D⟩ = .ok ⟨T', ci + takesAll T ts, D ++ drawAll data T ci ts⟩ ∧
      (∀ u ∉ ts, T'.get? u = T.get? u) ∧
      ∀ l t r, ts = l ++ t :: r → T'.get? t = (T.get? t).map (fun _ => fmtFor T (ci + takesAll T l) t)) := by
  induction ts generalizing T ci D with
  | nil =>
    refine ⟨fun h => ?_, fun _ => ⟨T, ?_, fun _ _ => rfl, ?_⟩⟩
    · unfold takesAll at h; omega
    · simp [drawAll, takesAll, pure, Except.pure]
    · intro l t r h; simp at h
  | cons t ts ih =>
    have hnt : t ∉ ts := (List.nodup_cons.1 hn).1
    have hn' : ts.Nodup := (List.nodup_cons.1 hn).2
    have hagree : ∀ u ∈ ts, (fmtsAfter T ci t).get? u = T.get? u := fun u hu => fmtsAfter_ne T ci (fun e => hnt (e ▸ hu))
    have hta : takesAll (fmtsAfter T ci t) ts = takesAll T ts := takesAll_congr ts hagree
    rw [List.foldlM_cons]
    by_cases hbad : NeedsColour T t ∧ 9 ≤ ci
    · have hs : mtelStep data none ⟨T, ci, D⟩ t = .error .indexError := by
        unfold mtelStep; simp only [telFormat_eq, if_pos hbad]
      refine ⟨fun _ => by rw [hs]; rfl, fun h => ?_⟩
      have : takes T t = 1 := by unfold takes; rw [if_pos hbad.1]
      unfold takesAll at h; omega
    · have hs : mtelStep data none ⟨T, ci, D⟩ t = .ok ⟨fmtsAfter T ci t, ci + takes T t, D ++ [⟨t, ptsOf data t, telplotKw t (fmtFor T ci t) none⟩]⟩ := by
        unfold mtelStep; simp only [telFormat_eq, if_neg hbad]; rfl
      have hci' : ci + takes T t ≤ 9 := by
        by_cases hN : NeedsColour T t
        · have := takes_le_of T t
          have : ¬ 9 ≤ ci := fun h => hbad ⟨hN, h⟩
          omega
        · unfold takes; rw [if_neg hN]; omega
      obtain ⟨ih1, ih2⟩ := ih hn' (fmtsAfter T ci t) (ci + takes T t) hci' (D ++ [⟨t, ptsOf data t, telplotKw t (fmtFor T ci t) none⟩])
      rw [hta] at ih1 ih2
      rw [hs]
      refine ⟨fun h => ?_, fun h => ?_⟩
      · unfold takesAll at h
        exact ih1 (by omega)
      · unfold takesAll at h
        obtain ⟨T', e, h1, h2⟩ := ih2 (by omega)
        refine ⟨T', ?_, ?_, ?_⟩
        · change ts.foldlM (mtelStep data none) _ = _
          rw [e]
          rw [takesAll_cons, drawAll_congr data ts hagree]
          simp [drawAll, Nat.add_assoc]
        · intro u hu
          simp only [List.mem_cons, not_or] at hu
          rw [h1 u hu.2, fmtsAfter_ne T ci (Ne.symm hu.1)]
        · intro l u r hl
          cases l with
          | nil =>
            simp only [List.nil_append, List.cons.injEq] at hl
            obtain ⟨rfl, rfl⟩ := hl
            rw [h1 t hnt, fmtsAfter_self]
            rfl
          | cons a l =>
            simp only [List.cons_append, List.cons.injEq] at hl
            obtain ⟨rfl, rfl⟩ := hl
            have hu : u ∈ l ++ u :: r := by simp
            rw [h2 l u r rfl, hagree u hu, fmtFor_congr (hagree u hu), takesAll_congr l (fun v hv => hagree v (by simp [hv]))]
            rw [takesAll_cons, Nat.add_assoc]

theorem uniqueTels_perm (tel : List String) : (uniqueTels tel).Perm tel.dedup := List.perm_insertionSort _ _

theorem uniqueTels_nodup (tel : List String) : (uniqueTels tel).Nodup := (uniqueTels_perm tel).nodup_iff.2 (List.nodup_dedup tel)

theorem mem_uniqueTels (tel : List String) (t : String) : t ∈ uniqueTels tel ↔ t ∈ tel := by
  rw [(uniqueTels_perm tel).mem_iff, List.mem_dedup]

theorem takesAll_eq_length (T : Dict String Fmt) (ts : List String) : takesAll T ts = (open Classical in ts.filter (fun t => decide (NeedsColour T t))).length := by
  induction ts with
  | nil => rfl
  | cons t ts ih =>
    unfold takesAll takes
    by_cases h : NeedsColour T t
    · simp [h, ih, Nat.add_comm]
    · simp [h, ih]

theorem takesAll_unique (T : Dict String Fmt) (tel : List String) : takesAll T (uniqueTels tel) = (needing T tel).length := by
  rw [takesAll_eq_length]
  exact ((uniqueTels_perm tel).filter _).length_eq

end Radvel
