import Verif.Spec.Crit
import Verif.Lemmas.CritKeep
import Verif.Lemmas.DriverFloat
import Verif.Lemmas.Report
import Verif.Props.Driver
import Mathlib.Tactic.Linarith
import Mathlib.Tactic.FieldSimp
import Mathlib.Algebra.Order.Field.Power

/-! Lemmas for C157: digits, rounding to thousandths, and the status file after sampling. -/

namespace Radvel

theorem digitChar_val (d : Nat) (h : d < 10) : IsDigit (Nat.digitChar d) ∧ (Nat.digitChar d).toNat - 48 = d := by
  unfold IsDigit
  interval_cases d <;> decide

theorem digits_digits (n : Nat) : Digits (digits n) := by
  refine ⟨digits_ne_nil n, fun c hc => ?_⟩
  have := digits_isDigit n c hc
  unfold Char.isDigit at this
  simp only [Bool.and_eq_true, decide_eq_true_eq] at this
  exact this

theorem numeral_digits (n : Nat) : numeral (digits n) = n := by
  induction n using Nat.strong_induction_on with
  | _ n ih =>
    unfold digits
    by_cases h : n < 10
    · rw [Nat.toDigits_of_lt_base h, numeral_singleton, (digitChar_val n h).2]
    · rw [Nat.toDigits_of_base_le (by decide) (by omega), numeral_append, numeral_singleton, (digitChar_val _ (Nat.mod_lt _ (by decide))).2]
      have := ih (n / 10) (by omega)
      unfold digits at this
      rw [this]
      simp only [List.length_singleton, pow_one]
      omega

theorem digits_head (n : Nat) : digits n = ['0'] ∨ (digits n).head? ≠ some '0' := by
  induction n using Nat.strong_induction_on with
  | _ n ih =>
    unfold digits
    by_cases h : n < 10
    · rw [Nat.toDigits_of_lt_base h]
      interval_cases n <;> decide
    · rw [Nat.toDigits_of_base_le (by decide) (by omega)]
      right
      have hne : Nat.toDigits 10 (n / 10) ≠ [] := Nat.toDigits_ne_nil
      obtain ⟨x, t, hx⟩ := List.exists_cons_of_ne_nil hne
      rcases ih (n / 10) (by omega) with h1 | h1
      · exfalso
        have := numeral_digits (n / 10)
        rw [h1] at this
        have h0 : numeral ['0'] = 0 := by decide
        omega
      · unfold digits at h1
        rw [hx] at h1 ⊢
        exact h1

theorem halfEven_dist (a b : Nat) (hb : 0 < b) : |(a : ℚ) / b - halfEven a b| ≤ 1 / 2 := by
  have hbq : (0 : ℚ) < b := by exact_mod_cast hb
  have hdiv : (a : ℚ) = b * (a / b : Nat) + (a % b : Nat) := by exact_mod_cast (Nat.div_add_mod a b).symm
  have hlt := Nat.mod_lt a hb
  have key : ∀ k : ℕ, (2 * b * k ≤ 2 * a + b) → (2 * a ≤ 2 * b * k + b) → |(a : ℚ) / b - k| ≤ 1 / 2 := by
    intro k h1 h2
    have h1' : (2 * b * k : ℚ) ≤ 2 * a + b := by exact_mod_cast h1
    have h2' : (2 * a : ℚ) ≤ 2 * b * k + b := by exact_mod_cast h2
    rw [abs_le]
    constructor
    · rw [le_sub_iff_add_le, le_div_iff₀ hbq]; linarith
    · rw [sub_le_iff_le_add, div_le_iff₀ hbq]; linarith
  have hnat := Nat.div_add_mod a b
  unfold halfEven
  generalize a / b = q at *
  generalize a % b = r at *
  have e1 : b * (q + 1) = b * q + b := by ring
  have e2 : 2 * b * q = 2 * (b * q) := by ring
  have e3 : 2 * b * (q + 1) = 2 * (b * q) + 2 * b := by ring
  split_ifs <;> apply key <;> first | rw [e2] | rw [e3]
  all_goals omega

theorem thousandths_dist (m : Nat) (e : Int) : |(m : ℚ) * (10 : ℚ) ^ e - thousandths m e / 1000| ≤ 1 / 2000 := by
  unfold thousandths
  split_ifs with h
  · obtain ⟨k, hk⟩ := Int.eq_ofNat_of_zero_le h
    have he : e = k - 3 := by omega
    subst he
    rw [show ((k : Int) - 3 + 3).toNat = k by omega, zpow_sub₀ (by norm_num), zpow_natCast]
    push_cast
    rw [show (m : ℚ) * (10 ^ k / 1000) - m * 10 ^ k / 1000 = 0 by ring]
    norm_num
  · obtain ⟨k, hk⟩ := Int.eq_ofNat_of_zero_le (a := -(e + 3)) (by omega)
    have he : e = -(k : Int) - 3 := by omega
    subst he
    rw [show (-(-(k : Int) - 3 + 3)).toNat = k by omega, zpow_sub₀ (by norm_num), zpow_neg, zpow_natCast]
    have := halfEven_dist m (10 ^ k) (by positivity)
    push_cast at this
    generalize halfEven m (10 ^ k) = n at *
    rw [show (m : ℚ) * ((10 ^ k)⁻¹ / 10 ^ (3 : ℤ)) - n / 1000 = (m / 10 ^ k - n) / 1000 by norm_num; ring, abs_div]
    norm_num
    linarith

theorem numeral_places (n : Nat) : numeral (digits (n / 1000) ++ [Nat.digitChar (n / 100 % 10), Nat.digitChar (n / 10 % 10), Nat.digitChar (n % 10)]) = n := by
  rw [numeral_append, numeral_digits, numeral_cons, numeral_cons, numeral_singleton, (digitChar_val _ (Nat.mod_lt _ (by decide))).2, (digitChar_val _ (Nat.mod_lt _ (by decide))).2,
    (digitChar_val _ (Nat.mod_lt _ (by decide))).2]
  simp only [List.length_cons, List.length_nil]
  omega

/-- What is printed for a text that can be read as a number. -/
theorem writes_shows {v : Text} {x : CritNum} (h : Writes v x) : ∃ f, pyFloat v = some f ∧ Shows3 x (fixed3 f) := by
  cases h with
  | num _ neg m e h =>
    refine ⟨_, pyFloat_dec h, ?_⟩
    have hd := fun k => digitChar_val (k % 10) (Nat.mod_lt _ (by decide))
    refine .num neg _ _ _ (digits_digits _) (digits_head _) ⟨by simp, ?_⟩ rfl ?_
    · intro c hc
      simp only [List.mem_cons, List.not_mem_nil, or_false] at hc
      rcases hc with rfl | rfl | rfl <;> exact (hd _).1
    · rw [numeral_places]
      exact thousandths_dist m e
  | inf neg =>
    refine ⟨.inf neg, ?_, .inf neg⟩
    cases neg <;> decide +kernel
  | nan => exact ⟨.nan, by decide +kernel, .nan⟩

theorem cell_line {name : String} {v : Text} {x : CritNum} (h : Writes v x) : ∃ line, critRow (name.toList, some v) = .ok line ∧ CritLine name x line := by
  obtain ⟨f, h1, h2⟩ := writes_shows h
  unfold critRow critCell
  simp only [h1]
  refine ⟨_, rfl, List.replicate (7 - (fixed3 f).length) ' ', fixed3 f, ?_, h2, fun c hc => (List.mem_replicate.1 hc).2, ?_⟩
  · unfold padLeft
    have : " & $".toList = " & ".toList ++ ['$'] := rfl
    rw [this]
    simp only [List.append_assoc]
  · rw [List.length_replicate]
    omega

/-! ### the status file -/

/-- Nothing happens to the status file if the step raises. -/
def FailStill {α : Type} (m : Run α) : Prop := ∀ w c, Readable w c → ∀ e, (m w).1 = .error e → (m w).2.stat = w.stat

/-- Nothing happens to the status file. -/
def StatStill {α : Type} (m : Run α) : Prop := ∀ w, (m w).2.stat = w.stat

theorem failStill_bind {α β : Type} {m : Run α} {f : α → Run β} (hm : StatStill m) (hf : ∀ a, FailStill (f a)) : FailStill (m >>= f) := by
  intro w c hw e h
  rw [run_bind] at h ⊢
  have h0 := hm w
  rcases h1 : m w with ⟨r, w1⟩
  rw [h1] at h h0
  rcases r with e' | a
  · exact h0
  · have h0 : w1.stat = w.stat := h0
    have := hf a w1 c ⟨by rw [h0]; exact hw.1, hw.2⟩ e h
    exact this.trans h0

theorem statStill_bind {α β : Type} {m : Run α} {f : α → Run β} (hm : StatStill m) (hf : ∀ a, StatStill (f a)) : StatStill (m >>= f) := by
  intro w
  rw [run_bind]
  have h0 := hm w
  rcases h1 : m w with ⟨r, w1⟩
  rw [h1] at h0
  rcases r with e' | a
  · exact h0
  · exact (hf a w1).trans h0

theorem statStill_work (o : Oracle) (k : Work) : StatStill (work o k) := fun w => by unfold work; rcases o k with _ | e <;> rfl
theorem statStill_readPost (p : Text) : StatStill (readPost p) := fun w => by unfold readPost; split <;> rfl
theorem statStill_lift {α : Type} (x : Except PyErr α) : StatStill (lift x) := fun _ => rfl

theorem failStill_mcmc {pre : Text} (hp : PlainPrefix pre) {num : McmcNumbers} (hn : num.Plain) (o : Oracle) : FailStill (mcmcCmd pre num o) := by
  refine failStill_bind (m := loadR) (fun _ => rfl) fun _ => failStill_bind (statStill_work _ _) fun _ => failStill_bind (statStill_lift _) fun b => failStill_bind ?_ fun _ => ?_
  · unfold startFrom
    split_ifs
    · exact statStill_bind (statStill_lift _) fun _ => statStill_bind (statStill_readPost _) fun _ => fun _ => rfl
    · exact fun _ => rfl
  · refine failStill_bind (statStill_work _ _) fun _ => failStill_bind (m := newRun) (fun _ => rfl) fun _ => failStill_bind (m := writeR _ _) (fun _ => rfl) fun _ =>
      failStill_bind (m := writeR _ _) (fun _ => rfl) fun _ => failStill_bind (statStill_work _ _) fun _ => failStill_bind (m := writeR _ _) (fun _ => rfl) fun _ =>
      failStill_bind (m := writeR _ _) (fun _ => rfl) fun _ => ?_
    rintro w c ⟨h0, hc⟩ e he
    obtain ⟨t, h1, h2, h3⟩ := save_plain h0 hc (plain_mcmc hp hn)
    rw [run_bind] at he
    unfold complete at he
    rw [h1] at he
    cases he

theorem afterMcmc_value {pre : Text} (hp : PlainPrefix pre) {w w' : World} {c : Config} (hw : Readable w c) (h : AfterMcmc pre w w') :
    ∃ c', Readable w' c' ∧ ∀ k, Config.value c' "mcmc".toList k = Config.value c "mcmc".toList k := by
  induction h with
  | now => exact ⟨c, hw, fun _ => rfl⟩
  | other w' cmd o _ hc hm ih =>
    obtain ⟨c1, h1, h2⟩ := ih
    obtain ⟨c2, h3, h4⟩ := keepsMcmc_command hp o cmd hc hm w' c1 h1
    exact ⟨c2, h3, fun k => (h4 k).trans (h2 k)⟩
  | failed w' num o e _ hn he ih =>
    obtain ⟨c1, h1, h2⟩ := ih
    exact ⟨c1, ⟨by rw [failStill_mcmc hp hn o w' c1 h1 e he]; exact h1.1, h1.2⟩, h2⟩
  | edit w' files _ ih => exact ih

/-- What the status holds after sampling. -/
theorem mcmc_saved {pre : Text} (hp : PlainPrefix pre) {num : McmcNumbers} (hn : num.Plain) (o : Oracle) {w w' : World} {c : Config} (hw : Readable w c) {u : Option Source} (h : mcmcCmd pre num o w = (.ok u, w')) :
    ∃ c', Readable w' c' ∧ ∀ k v, savedValue (mcmcVars pre num) k = some v → Config.value c' "mcmc".toList k = some v := by
  obtain ⟨h0, hc⟩ := hw
  obtain ⟨_, _, h⟩ := load_then h
  obtain ⟨b, _, h⟩ := lift_then (work_then h)
  obtain ⟨_, _, h⟩ := still_then (m := startFrom _ b) (by
    unfold startFrom
    exact still_ite _ (still_bind (still_lift _) fun _ => still_bind (still_readPost _) fun _ => still_pure _) (still_pure _)) h
  replace h := work_then h
  replace h := newRun_then h
  replace h := write_then h
  replace h := write_then h
  replace h := work_then h
  replace h := write_then h
  replace h := write_then h
  obtain ⟨_, w2, h2, h⟩ := bind_ok h
  cases h
  obtain ⟨t, h1, h3, h4⟩ := save_plain h0 hc (plain_mcmc hp hn)
  unfold complete at h2
  simp only [h1] at h2
  cases h2
  exact ⟨_, ⟨h3, h4⟩, fun k v hv => by rw [value_step hc (plain_mcmc hp hn), if_pos rfl, hv]; rfl⟩

end Radvel
