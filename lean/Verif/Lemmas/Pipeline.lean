import Verif.Spec.Pipeline
import Verif.Lemmas.StatusStep
import Verif.Props.Driver

/-! Helper lemmas for the pipeline: sequencing, and the invariant that every section of the status file belongs to something completed. -/

namespace Radvel

theorem run_bind {α β : Type} (m : Run α) (f : α → Run β) (w : World) :
    (m >>= f) w = match m w with | (.ok a, w') => f a w' | (.error e, w') => (.error e, w') := rfl

theorem bind_ok {α β : Type} {m : Run α} {f : α → Run β} {w : World} {b : β} {w' : World} (h : (m >>= f) w = (.ok b, w')) : ∃ a w1, m w = (.ok a, w1) ∧ f a w1 = (.ok b, w') := by
  rw [run_bind] at h
  rcases hm : m w with ⟨r, w1⟩
  rw [hm] at h
  rcases r with e | a
  · simp at h
  · exact ⟨a, w1, rfl, h⟩

theorem bind_of_ok {α β : Type} {m : Run α} {f : α → Run β} {w w1 : World} {a : α} (h : m w = (.ok a, w1)) : (m >>= f) w = f a w1 := by
  rw [run_bind, h]

theorem bind_of_error {α β : Type} {m : Run α} {f : α → Run β} {w w1 : World} {e : PyErr} (h : m w = (.error e, w1)) : (m >>= f) w = (.error e, w1) := by
  rw [run_bind, h]

theorem pure_run {α : Type} (a : α) (w : World) : (pure a : Run α) w = (.ok a, w) := rfl

theorem lift_ok {α : Type} {x : Except PyErr α} {w w' : World} {a : α} (h : lift x w = (.ok a, w')) : x = .ok a ∧ w' = w := by
  unfold lift at h
  exact ⟨(Prod.mk.inj h).1, (Prod.mk.inj h).2.symm⟩

theorem work_ok {o : Oracle} {k : Work} {w w' : World} {u : Unit} (h : work o k w = (.ok u, w')) : w' = w ∧ o k = none := by
  unfold work at h
  rcases ho : o k with _ | e
  · rw [ho] at h; exact ⟨(Prod.mk.inj h).2.symm, rfl⟩
  · rw [ho] at h; simp at h

theorem loadR_ok {w w' : World} {c : Config} (h : loadR w = (.ok c, w')) : loadStatus w.stat = .ok c ∧ w' = w := by
  unfold loadR at h
  exact ⟨(Prod.mk.inj h).1, (Prod.mk.inj h).2.symm⟩

theorem assertR_ok {b : Bool} {w w' : World} {u : Unit} (h : assertR b w = (.ok u, w')) : b = true ∧ w' = w := by
  cases b
  · simp [assertR, lift] at h
  · exact ⟨rfl, (Prod.mk.inj h).2.symm⟩

/-- The section an event is saved under. -/
def Event.section_ : Event → Text
  | .fit _ => "fit".toList
  | .mcmc _ => "mcmc".toList
  | .ns _ => "ns".toList
  | .ic => "ic_compare".toList
  | .derive _ => "derive".toList
  | .plot _ => "plot".toList
  | .table _ => "table".toList

/-- The status file can be read, and each of its sections belongs to something completed. -/
def Good (w : World) : Prop := ∃ c, loadStatus w.stat = .ok c ∧ PlainConfig c ∧ ∀ s ∈ c.keys, ∃ ev ∈ w.log, ev.section_ = s

/-- A step that keeps the invariant and what has been completed. -/
def Steady {α : Type} (m : Run α) : Prop := ∀ w, Good w → Good (m w).2 ∧ w.log <:+ (m w).2.log

theorem steady_bind {α β : Type} {m : Run α} {f : α → Run β} (hm : Steady m) (hf : ∀ a, Steady (f a)) : Steady (m >>= f) := by
  intro w hw
  rw [run_bind]
  obtain ⟨h1, h2⟩ := hm w hw
  rcases h : m w with ⟨r, w1⟩
  rw [h] at h1 h2
  rcases r with e | a
  · exact ⟨h1, h2⟩
  · obtain ⟨h3, h4⟩ := hf a w1 h1
    exact ⟨h3, h2.trans h4⟩

theorem steady_pure {α : Type} (a : α) : Steady (pure a : Run α) := fun _ hw => ⟨hw, List.suffix_rfl⟩

theorem steady_lift {α : Type} (x : Except PyErr α) : Steady (lift x) := fun _ hw => ⟨hw, List.suffix_rfl⟩

theorem steady_work (o : Oracle) (k : Work) : Steady (work o k) := by
  intro w hw
  unfold work
  rcases o k with _ | e <;> exact ⟨hw, List.suffix_rfl⟩

theorem steady_newRun : Steady newRun := fun _ hw => ⟨hw, List.suffix_rfl⟩

theorem steady_load : Steady loadR := fun _ hw => ⟨hw, List.suffix_rfl⟩

theorem steady_write (p : Text) (c : Content) : Steady (writeR p c) := fun _ hw => ⟨hw, List.suffix_rfl⟩

theorem steady_readPost (p : Text) : Steady (readPost p) := by
  intro w hw
  unfold readPost
  split <;> exact ⟨hw, List.suffix_rfl⟩

theorem steady_readChains (p : Text) : Steady (readChains p) := by
  intro w hw
  unfold readChains
  split <;> exact ⟨hw, List.suffix_rfl⟩

theorem steady_readAutocorr (p : Text) : Steady (readAutocorr p) := by
  intro w hw
  unfold readAutocorr
  split <;> exact ⟨hw, List.suffix_rfl⟩

theorem steady_readDerived (p : Text) : Steady (readDerived p) := by
  intro w hw
  unfold readDerived
  split <;> exact ⟨hw, List.suffix_rfl⟩

theorem steady_assert (b : Bool) : Steady (assertR b) := by
  cases b <;> exact steady_lift _

theorem steady_ite {α : Type} (p : Prop) [Decidable p] {m n : Run α} (hm : Steady m) (hn : Steady n) : Steady (if p then m else n) := by
  split_ifs
  · exact hm
  · exact hn

/-- What a save leaves in the status file. -/
theorem save_plain {stat : Option Text} {c : Config} (h0 : loadStatus stat = .ok c) (hc : PlainConfig c) {sec : Text} {vars : List (Text × Text)} (hx : Save.Plain ⟨sec, vars⟩) :
    ∃ t, saveStatus stat sec vars = .ok t ∧ loadStatus (some t) = .ok (stepConfig c ⟨sec, vars⟩) ∧ PlainConfig (stepConfig c ⟨sec, vars⟩) := by
  obtain ⟨p1, _, _⟩ := stepConfig_spec hc hx
  refine ⟨writeConfig (stepConfig c ⟨sec, vars⟩), ?_, read_write _ p1, p1⟩
  unfold saveStatus newStatus
  rw [h0]
  rfl

theorem steady_complete {sec : Text} {vars : List (Text × Text)} {ev : Event} (hx : Save.Plain ⟨sec, vars⟩) (hev : ev.section_ = sec) : Steady (complete sec vars ev) := by
  rintro w ⟨c, h0, hc, hs⟩
  obtain ⟨t, h1, h2, h3⟩ := save_plain h0 hc hx
  obtain ⟨_, _, hk⟩ := stepConfig_spec hc hx
  unfold complete
  rw [h1]
  refine ⟨⟨_, h2, h3, ?_⟩, List.suffix_cons _ _⟩
  intro s hm
  rcases (hk s).1 hm with rfl | hm
  · exact ⟨ev, by simp, hev⟩
  · obtain ⟨ev', h', e'⟩ := hs s hm
    exact ⟨ev', by simp [h'], e'⟩

theorem plain_path {pre : Text} (h : PlainPrefix pre) (suffix : String) (hs : ∃ t d, suffix.toList = t ++ [d] ∧ isSpace d = false) (hn : '\n' ∉ suffix.toList ∧ '\r' ∉ suffix.toList) : PlainValue (pathOf pre suffix) := by
  obtain ⟨c, t, rfl, hc⟩ := h.start
  obtain ⟨u, d, hu, hd⟩ := hs
  have h1 := h.oneLine
  unfold pathOf
  refine ⟨⟨?_, ?_⟩, ?_⟩
  · rw [List.mem_append]; exact fun h' => h'.elim h1.1 hn.1
  · rw [List.mem_append]; exact fun h' => h'.elim h1.2 hn.2
  · rw [hu, ← List.append_assoc, List.cons_append]
    exact strip_of_ends hc hd

end Radvel
