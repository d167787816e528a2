import Verif.Model.Shipped
import Verif.Props.Experiment
import Mathlib.Tactic.IntervalCases

/-!
# C95: the testbed that comes with the library
-/

namespace Verif.Props
open Verif.Py Verif.Model

/-! ## C52: valid experiments -/

/-- **C52, exactly.**  An experiment is valid if and only if it has 1 to 128 valid configs, no target twice, different ids for all targets, an observer of its own for every target, and no negative
duration. -/
theorem C52_exactly (env : ContentDb) (tb : TestbedDev) (xp : Xp) : xp.validate env tb = .ok () ↔
    (1 ≤ xp.configs.length ∧ xp.configs.length ≤ 128) ∧ (∀ c ∈ xp.configs, c.validate env = .ok ()) ∧ xp.targetIds.Nodup ∧ ((xp.configs.flatMap assigned).map (·.2)).Nodup ∧
    (∃ os, List.Forall₂ (fun t o => tb.getObserver t = .ok o) xp.targetIds os ∧ (os.map (·.id)).Nodup) ∧ ∀ d, xp.duration = some d → 0 ≤ d := by
  constructor
  · intro h
    obtain ⟨h1, h2, -, -, h5⟩ := xp_valid h
    obtain ⟨g1, -, g3⟩ := C52_ids env tb xp h
    obtain ⟨os, f1, f2⟩ := C52_observers env tb xp h
    refine ⟨⟨h1, ?_⟩, h2, g1, g3, ⟨os, f1.imp fun _ _ h => h.1, f2⟩, h5⟩
    unfold Xp.validate at h
    split_ifs at h with h0
    omega
  · rintro ⟨h1, h2, h3, h4, ⟨os, h5, h6⟩, h7⟩
    have hcfg : ∃ us, allOk (TargetCfg.validate env) xp.configs = .ok us := by
      have : ∀ l : List TargetCfg, (∀ c ∈ l, c.validate env = .ok ()) → allOk (TargetCfg.validate env) l = .ok (l.map fun _ => ()) := by
        intro l hl
        induction l with
        | nil => rfl
        | cons a l ih =>
          rw [allOk, hl a (by simp)]
          simp only
          rw [ih (fun c hc => hl c (List.mem_cons_of_mem _ hc))]
          rfl
      exact ⟨_, this _ h2⟩
    have hlong : ∀ c ∈ xp.configs, c.targetIds.length ≤ (c.customIds.getD c.targetIds).length := by
      intro c hc
      have hn := nodup_mem_flatMap h3 hc
      obtain ⟨-, g, -⟩ := (C56_exactly env c).mp (h2 c hc)
      cases hcu : c.customIds with
      | none => simp
      | some l =>
        obtain ⟨-, -, -, g4⟩ := g l hcu
        rw [hn.dedup] at g4
        exact g4.trans (List.dedup_sublist l).length_le
    have hfst : (xp.configs.flatMap assigned).map (·.1) = xp.targetIds := by
      rw [flatMap_map, Xp.targetIds]
      refine List.flatMap_congr fun c hc => ?_
      unfold assigned
      exact zip_fst _ _ (hlong c hc)
    have hg : xp.configs.flatMap givenIds = (xp.configs.flatMap assigned).map (·.2) := by
      rw [flatMap_map]
      exact List.flatMap_congr fun c _ => givenIds_eq c
    have ht : validateTargets env xp.configs = .ok () := by
      have htg : ∀ l : List ℕ, (∀ id ∈ l, ∃ t, env.target id = .ok t) → ∃ ts, allOk env.target l = .ok ts := by
        intro l hl
        induction l with
        | nil => exact ⟨_, rfl⟩
        | cons a l ih =>
          obtain ⟨t, ht⟩ := hl a (by simp)
          obtain ⟨ts, hts⟩ := ih (fun c hc => hl c (List.mem_cons_of_mem _ hc))
          exact ⟨t :: ts, by rw [allOk, ht]; simp only; rw [hts]⟩
      obtain ⟨ts, hts⟩ := htg (xp.configs.flatMap (·.targetIds)) (by
        intro id hid
        obtain ⟨c, hc, hi⟩ := List.mem_flatMap.mp hid
        obtain ⟨-, -, -, g⟩ := (C56_exactly env c).mp (h2 c hc)
        obtain ⟨t, g1, -⟩ := g id hi
        exact ⟨t, g1⟩)
      unfold validateTargets
      rw [hts]
      simp only
      have h3' : (xp.configs.flatMap (·.targetIds)).Nodup := h3
      rw [repeats_of_nodup h3', if_neg (by simp), hg, h4.dedup, if_neg]
      have hl : (xp.configs.flatMap (·.targetIds)).length = (xp.configs.flatMap assigned).length := by
        rw [← List.length_map (as := xp.configs.flatMap assigned) (f := fun x : ℕ × ℕ => x.1), hfst]
        rfl
      rw [List.length_map, hl]
      exact lt_irrefl _
    have ho : validateObservers tb xp.configs = .ok () := by
      unfold validateObservers
      have : allOk tb.getObserver (xp.configs.flatMap (·.targetIds)) = .ok os := ok_allOk h5
      rw [this]
      simp only
      rw [h6.dedup, List.length_map, ← h5.length_eq, if_neg]
      exact lt_irrefl _
    obtain ⟨us, hus⟩ := hcfg
    unfold Xp.validate
    rw [if_neg (by omega), hus]
    simp only
    rw [ht]
    simp only
    rw [ho]
    simp only
    cases hd : xp.duration with
    | none => rfl
    | some d =>
      have := h7 d hd
      simp only
      rw [if_neg (by omega)]

/-! ## Specification: what comes with the library -/

/-- The two micro-controllers. -/
def nrf52 : Mcu := { id := 1001, name := "nRF52", progVoltage := 3, progDatarate := 500000, protocol := 0, fwDefault := "nrf52_demo_rf" }
/-- The micro-controller used as memory. -/
def msp430 : Mcu := { id := 1002, name := "MSP430FR", progVoltage := 3, progDatarate := 500000, protocol := 1, fwDefault := "msp430_deep_sleep" }

/-- A target with both micro-controllers; its id is its node id. -/
def twoChips (id : ℕ) : TargetDev := { id, testbedId := id, active := true, mcu1 := nrf52, mcu2 := some msp430, rest := 0 }
/-- The target for tests, with one micro-controller. -/
def oneChip : TargetDev := { id := 1001, testbedId := 1001, active := true, mcu1 := nrf52, mcu2 := none, rest := 0 }

/-- An observer in use with a cape in use. -/
def sheepWith (k : ℕ) (name mac port : String) (cape : ℕ) (a : ℕ) (b : Option TargetDev) : ObserverDev :=
  { id := k, name, ip := ((192 * 256 + 168) * 256 + 165) * 256 + 200 + k, mac, ethPort := port, active := true, cape := some { id := 1270000 + cape, active := true, rest := 0 },
    targetA := some (twoChips a), targetB := b }

/-- The observers of the testbed. -/
def flock : List ObserverDev :=
  [sheepWith 1 "sheep01" "18:62:E4:E4:41:8D" "B14" 51 6 none, sheepWith 2 "sheep02" "18:62:E4:D0:DE:3F" "A18" 52 8 none, sheepWith 4 "sheep04" "18:62:E4:D0:61:4D" "C6" 54 3 none,
   sheepWith 5 "sheep05" "18:62:E4:E3:6E:13" "D10" 55 1 (some oneChip), sheepWith 6 "sheep06" "18:62:E4:D0:AF:0B" "L14" 56 11 none,
   sheepWith 7 "sheep07" "18:62:E4:E4:39:D7" "A20" 57 7 none, sheepWith 9 "sheep09" "18:62:E4:D0:D4:A9" "C4" 65 5 none, sheepWith 10 "sheep10" "18:62:E4:E4:24:C5" "C20" 59 2 none,
   sheepWith 12 "sheep12" "18:62:E4:D0:AA:F7" "B24" 62 4 none, sheepWith 13 "sheep13" "18:62:E4:D0:D7:70" "A4" 60 9 none, sheepWith 14 "sheep14" "18:62:E4:E3:89:43" "L24" 64 10 none]

/-- The testbed. -/
def pasture : TestbedDev := { observers := flock, sharedStorage := true, root := ["/", "var", "shepherd"], prepDuration := 5 * 60 * 10 ^ 6 }

/-- The targets that can be used: number 1 to 11, and the one for tests. -/
def usable : List ℕ := [1, 2, 3, 4, 5, 6, 7, 8, 9, 10, 11, 1001]

/-- The observer of a target. -/
def shepherdOf (id : ℕ) : ℕ :=
  match id with
  | 6 => 1 | 8 => 2 | 3 => 4 | 1 => 5 | 1001 => 5 | 11 => 6 | 7 => 7 | 5 => 9 | 2 => 10 | 4 => 12 | 9 => 13 | _ => 14

/-! ## Theorems -/

theorem shipped_observers : (allOk (loadObserver shippedFiles) testbedFile).toOption = some flock := by decide +kernel

theorem pasture_valid : pasture.validate = .ok () := by decide +kernel

/-- **C95, the testbed.**  `Testbed()` gives the testbed with its eleven observers, and it is valid. -/
theorem C95_testbed : loadTestbed shippedFiles testbedFile = .ok pasture ∧ pasture.validate = .ok () := by
  refine ⟨?_, pasture_valid⟩
  have h := shipped_observers
  unfold loadTestbed
  cases ho : allOk (loadObserver shippedFiles) testbedFile with
  | error e => rw [ho] at h; cases h
  | ok os =>
    rw [ho] at h
    cases h
    change (match pasture.validate with | .error e => (throw e : Except PyErr TestbedDev) | .ok () => pure pasture) = _
    rw [pasture_valid]
    rfl

theorem flock_on {o : ObserverDev} (ho : o ∈ flock) {p : Port} {t : TargetDev} (h : On o p t) : t.id ∈ usable ∧ t.testbedId = t.id ∧ (t = twoChips t.id ∧ t.id ≠ 1001 ∨ t = oneChip) := by
  have key : ∀ o ∈ flock, ∀ t ∈ o.targetA.toList ++ o.targetB.toList, t.id ∈ usable ∧ t.testbedId = t.id ∧ (t = twoChips t.id ∧ t.id ≠ 1001 ∨ t = oneChip) := by decide +kernel
  exact key o ho t (on_mem h)

theorem usable_found : ∀ id ∈ usable, (pasture.getObserver id).toOption.map (·.id) = some (shepherdOf id) := by decide +kernel

/-- **C95, targets.**  Exactly the targets 1 to 11 and 1001 are found, each on its observer; for all others a ValueError is raised. -/
theorem C95_targets (id : ℕ) : (id ∈ usable → ∃ o ∈ flock, pasture.getObserver id = .ok o ∧ o.id = shepherdOf id) ∧ (id ∉ usable → pasture.getObserver id = .error .valueError) := by
  constructor
  · intro h
    have := usable_found id h
    cases ho : pasture.getObserver id with
    | error e => rw [ho] at this; cases this
    | ok o =>
      rw [ho] at this
      exact ⟨o, (findObserver_ok ho).1, rfl, by simpa [Except.toOption] using this⟩
  · intro h
    refine (C57_complete_partial pasture (by decide +kernel) id).2 ?_
    rintro o ho ⟨-, -, p, t, h1, h2, -⟩
    exact h (h2 ▸ (flock_on ho h1).1)

/-- The data base answers for the targets of the testbed: the first micro-controller is an nRF52, the second an MSP430, except for the one for tests. -/
theorem C95_database : (∀ id ∈ usable, shippedDb.target id = .ok (if id = 1001 then oneChip else twoChips id)) ∧
    (∃ f, shippedDb.firmware "nrf52_demo_rf" = .ok f ∧ f.mcu = nrf52) ∧ ∃ f, shippedDb.firmware "msp430_deep_sleep" = .ok f ∧ f.mcu = msp430 := by
  have h1 : ∀ id ∈ usable, (shippedDb.target id).toOption = some (if id = 1001 then oneChip else twoChips id) := by decide +kernel
  have h2 : (shippedDb.firmware "nrf52_demo_rf").toOption.map (·.mcu) = some nrf52 := by decide +kernel
  have h3 : (shippedDb.firmware "msp430_deep_sleep").toOption.map (·.mcu) = some msp430 := by decide +kernel
  have key : ∀ {α β : Type} (x : Except PyErr α) (f : α → β) (b : β), x.toOption.map f = some b → ∃ a, x = .ok a ∧ f a = b := by
    intro α β x f b h
    cases x with
    | error e => cases h
    | ok a => exact ⟨a, rfl, by simpa [Except.toOption] using h⟩
  refine ⟨?_, key _ _ _ h2, key _ _ _ h3⟩
  intro id hid
  have h := h1 id hid
  cases ht : shippedDb.target id with
  | error e => rw [ht] at h; cases h
  | ok t => rw [ht] at h; cases h; rfl

/-- The observers of usable targets differ, except for targets 1 and 1001. -/
theorem shepherd_inj : ∀ a ∈ usable, ∀ b ∈ usable, shepherdOf a = shepherdOf b → a = b ∨ (a = 1 ∧ b = 1001) ∨ (a = 1001 ∧ b = 1) := by decide +kernel

/-- For lists of targets without repetition: every target has an observer of its own if and only if all are usable and not both 1 and 1001 are in it. -/
theorem own_observers {l : List ℕ} (hl : l.Nodup) : (∃ os, List.Forall₂ (fun t o => pasture.getObserver t = .ok o) l os ∧ (os.map (·.id)).Nodup) ↔
    (∀ id ∈ l, id ∈ usable) ∧ ¬(1 ∈ l ∧ 1001 ∈ l) := by
  have hid : ∀ t o, pasture.getObserver t = .ok o → t ∈ usable ∧ o.id = shepherdOf t := by
    intro t o h
    by_cases ht : t ∈ usable
    · obtain ⟨o', -, h1, h2⟩ := (C95_targets t).1 ht
      rw [h] at h1
      cases h1
      exact ⟨ht, h2⟩
    · rw [(C95_targets t).2 ht] at h
      cases h
  have hmap : ∀ {l : List ℕ} {os : List ObserverDev}, List.Forall₂ (fun t o => pasture.getObserver t = .ok o) l os → os.map (·.id) = l.map shepherdOf := by
    intro l os h
    induction h with
    | nil => rfl
    | cons a _ ih => rw [List.map_cons, List.map_cons, ih, (hid _ _ a).2]
  constructor
  · rintro ⟨os, h1, h2⟩
    rw [hmap h1] at h2
    refine ⟨fun id h => ?_, fun ⟨ha, hb⟩ => ?_⟩
    · obtain ⟨o, -, ho⟩ := forall₂_mem h1 id h
      exact (hid _ _ ho).1
    · have := List.inj_on_of_nodup_map h2 ha hb rfl
      omega
  · rintro ⟨h1, h2⟩
    have hex : ∀ l : List ℕ, (∀ id ∈ l, id ∈ usable) → ∃ os, List.Forall₂ (fun t o => pasture.getObserver t = .ok o) l os := by
      intro l hl
      induction l with
      | nil => exact ⟨[], .nil⟩
      | cons a l ih =>
        obtain ⟨o, -, ho, -⟩ := (C95_targets a).1 (hl a (by simp))
        obtain ⟨os, hos⟩ := ih (fun i hi => hl i (List.mem_cons_of_mem _ hi))
        exact ⟨o :: os, .cons ho hos⟩
    obtain ⟨os, hos⟩ := hex l h1
    refine ⟨os, hos, ?_⟩
    rw [hmap hos]
    refine hl.map_on fun a ha b hb hab => ?_
    rcases shepherd_inj a (h1 a ha) b (h1 b hb) hab with h | ⟨rfl, rfl⟩ | ⟨rfl, rfl⟩
    · exact h
    · exact absurd ⟨ha, hb⟩ h2
    · exact absurd ⟨hb, ha⟩ h2

theorem flock_names : ∀ o ∈ flock, ∀ o' ∈ flock, o.name = o'.name → o = o' := by decide +kernel

/-- **C95, experiments.**  For every valid experiment: all its targets are usable ones, targets 1 and 1001 are not both used, and if its tasks are made, the node ids are pairwise
different on either port, every target writes to a file of its own, and every observer gets its own tasks. -/
theorem C95_experiments (fmt : ℤ → String) (clock : ℕ → ℤ) (env : ContentDb) (xp : Xp) (h : xp.validate env pasture = .ok ()) :
    ((∀ id ∈ xp.targetIds, id ∈ usable) ∧ ¬(1 ∈ xp.targetIds ∧ 1001 ∈ xp.targetIds) ∧ xp.targetIds.length ≤ 11) ∧
    ∀ ts, TbTasks.fromXp fmt clock xp pasture = .ok ts →
      ((ts.tasks.filterMap (·.fw1Mod)).map (·.customId)).Nodup ∧ ((ts.tasks.filterMap (·.fw2Mod)).map (·.customId)).Nodup ∧
      ts.outputPaths.length = xp.targetIds.length ∧ (ts.outputPaths.map (·.2)).Nodup ∧
      (∀ s ∈ ts.tasks, ts.prepare s.observer = .ok s.getTasks) ∧ ∀ x, x ∉ ts.tasks.map (·.observer) → ts.prepare x = .error .valueError := by
  obtain ⟨-, -, h3, -, h5, -⟩ := (C52_exactly env pasture xp).mp h
  obtain ⟨g1, g2⟩ := (own_observers h3).mp h5
  refine ⟨⟨g1, g2, xp_length h⟩, fun ts hts => ?_⟩
  obtain ⟨a1, a2⟩ := C53_tasks_partial fmt clock env pasture xp h (fun o ho p t hon => (flock_on ho hon).2.1) ts hts
  obtain ⟨b1, b2, b3⟩ := C55_paths_partial fmt clock env pasture xp h flock_names ts hts
  refine ⟨a1, a2, b1.length_eq.symm, b3, C87_prepare_partial ts ?_⟩
  obtain ⟨c1, -⟩ := C54_sets fmt clock xp pasture ts hts
  obtain ⟨os, d1, d2⟩ := C52_observers env pasture xp h
  have hname : ∀ {l : List ℕ} {os : List ObserverDev} {ss : List ObsTasks}, List.Forall₂ (fun t o => pasture.getObserver t = .ok o ∧ o ∈ pasture.observers ∧ Carries o t) l os →
      List.Forall₂ (fun id s => ∃ k, SetFor fmt (clock k) xp pasture id s) l ss → ss.map (·.observer) = os.map (·.name) := by
    intro l os ss h1
    induction h1 generalizing ss with
    | nil => intro h; cases h; rfl
    | cons x _ ih =>
      intro h
      cases h with
      | cons y hy =>
        obtain ⟨k, o, c, p, n, ⟨e1, -⟩, -, e2, -⟩ := y
        rw [x.1] at e1
        cases e1
        rw [List.map_cons, List.map_cons, ih hy, e2]
  rw [hname d1 c1]
  have hos : ∀ o ∈ os, o ∈ flock := by
    intro o ho
    obtain ⟨t, -, ht⟩ := forall₂_mem d1.flip o ho
    exact ht.2.1
  have hnd : os.Nodup := List.Nodup.of_map _ d2
  exact hnd.map_on fun a ha b hb hab => flock_names a (hos a ha) b (hos b hb) hab

/-- **C95, valid experiments.**  With the data base that comes with the library, an experiment is valid if and only if: it has 1 to 128 configs; all of them have targets, all usable;
the lists of custom ids fit; the energy environments are valid; the first firmware is for the nRF52, a second one for the MSP430 unless only target 1001 is meant; no target
comes twice nor 1 together with 1001; the ids of the targets are pairwise different; the duration is not negative. -/
theorem C95_valid_iff (xp : Xp) : xp.validate shippedDb pasture = .ok () ↔
    (1 ≤ xp.configs.length ∧ xp.configs.length ≤ 128) ∧
    (∀ c ∈ xp.configs, (c.targetIds ≠ [] ∧ ∀ id ∈ c.targetIds, id ∈ usable) ∧
      (∀ l, c.customIds = some l → l.length ≤ 128 ∧ (∀ i ∈ l, i < 2 ^ 16) ∧ c.targetIds.length ≤ l.dedup.length) ∧ c.energyEnv.valid = true ∧
      c.firmware1.mcu.id = 1001 ∧ ∀ f, c.firmware2 = some f → f.mcu.id = 1002 ∨ c.targetIds = [1001]) ∧
    xp.targetIds.Nodup ∧ ¬(1 ∈ xp.targetIds ∧ 1001 ∈ xp.targetIds) ∧ ((xp.configs.flatMap assigned).map (·.2)).Nodup ∧ ∀ d, xp.duration = some d → 0 ≤ d := by
  obtain ⟨hdb, -, d2, hd2, hd2m⟩ := C95_database
  have hsmall : ∀ id ∈ usable, id < 2 ^ 128 := by decide
  rw [C52_exactly]
  constructor
  · rintro ⟨h1, h2, h3, h4, h5, h6⟩
    obtain ⟨g1, g2⟩ := (own_observers h3).mp h5
    refine ⟨h1, fun c hc => ?_, h3, g2, h4, h6⟩
    have hn : c.targetIds.Nodup := nodup_mem_flatMap h3 hc
    obtain ⟨⟨a1, -, -⟩, a2, a3, a4⟩ := (C56_exactly _ c).mp (h2 c hc)
    have husable : ∀ id ∈ c.targetIds, id ∈ usable := fun id hid => g1 id (List.mem_flatMap.mpr ⟨c, hc, hid⟩)
    have hne : c.targetIds ≠ [] := by
      intro h
      rw [h] at a1
      simp at a1
    refine ⟨⟨hne, husable⟩, fun l hl => ?_, a3, ?_, fun f hf => ?_⟩
    · obtain ⟨-, b2, b3, b4⟩ := a2 l hl
      rw [hn.dedup] at b4
      exact ⟨b2, b3, b4⟩
    · obtain ⟨id, hid⟩ := List.exists_mem_of_ne_nil _ hne
      obtain ⟨t, b1, b2, -⟩ := a4 id hid
      rw [hdb id (husable id hid)] at b1
      cases b1
      rw [b2]
      split_ifs <;> rfl
    · by_cases hall : ∀ id ∈ c.targetIds, id = 1001
      · right
        cases hl : c.targetIds with
        | nil => exact absurd hl hne
        | cons a l =>
          rw [hl] at hall hn
          obtain rfl := hall a (by simp)
          cases l with
          | nil => rfl
          | cons b l =>
            obtain rfl := hall b (by simp)
            simp at hn
      · left
        push Not at hall
        obtain ⟨id, hid, hne'⟩ := hall
        obtain ⟨t, b1, -, b3, -⟩ := a4 id hid
        rw [hdb id (husable id hid), if_neg hne'] at b1
        cases b1
        exact b3 msp430 f rfl hf
  · rintro ⟨h1, h2, h3, h4, h5, h6⟩
    have husable : ∀ id ∈ xp.targetIds, id ∈ usable := by
      intro id hid
      obtain ⟨c, hc, hi⟩ := List.mem_flatMap.mp hid
      exact (h2 c hc).1.2 id hi
    refine ⟨h1, fun c hc => ?_, h3, h5, (own_observers h3).mpr ⟨husable, h4⟩, h6⟩
    have hn : c.targetIds.Nodup := nodup_mem_flatMap h3 hc
    obtain ⟨⟨a1, a2⟩, a3, a4, a5, a6⟩ := h2 c hc
    refine (C56_exactly _ c).mpr ⟨⟨List.length_pos_iff.mpr a1, ?_, fun i hi => hsmall i (a2 i hi)⟩, fun l hl => ?_, a4, fun id hid => ?_⟩
    · have : c.targetIds.length ≤ usable.length := (hn.subperm fun x hx => a2 x hx).length_le
      exact this.trans (by decide)
    · obtain ⟨b1, b2, b3⟩ := a3 l hl
      have hpos := List.length_pos_iff.mpr a1
      have := (List.dedup_sublist l).length_le
      rw [hn.dedup]
      exact ⟨by omega, b1, b2, b3⟩
    · refine ⟨_, hdb id (a2 id hid), ?_, ?_, ?_⟩
      · rw [a5]
        split_ifs <;> rfl
      · intro m f hm hf
        split_ifs at hm with h
        · cases hm
        · cases hm
          rcases a6 f hf with h' | h'
          · exact h'
          · rw [h'] at hid
            exact absurd (List.mem_singleton.mp hid) h
      · intro m hm _
        split_ifs at hm with h
        · cases hm
        · cases hm
          exact ⟨d2, hd2, by rw [hd2m]⟩

/-- **C95, tasks.**  Tasks are made for every valid experiment that does not start in the past, does not drive pins and uses firmware for the two micro-controllers. -/
theorem C95_tasks (fmt : ℤ → String) (clock : ℕ → ℤ) (env : ContentDb) (xp : Xp) (h : xp.validate env pasture = .ok ()) (hstart : ∀ t, xp.timeStart = some t → ∀ k, clock k ≤ t)
    (hact : ∀ c ∈ xp.configs, c.gpioActuation = none) (hmcu : ∀ c ∈ xp.configs, c.firmware1.mcu = nrf52 ∧ ∀ f, c.firmware2 = some f → f.mcu = msp430) :
    ∃ ts, TbTasks.fromXp fmt clock xp pasture = .ok ts ∧ ts.tasks.length = xp.targetIds.length := by
  have hsafe : isSafeStr nrf52.name = true ∧ isSafeStr msp430.name = true := by decide +kernel
  obtain ⟨ts, hts⟩ := C72_translate_partial fmt clock env pasture xp pasture_valid h hstart hact (by
    intro c hc port f hf
    obtain ⟨h1, h2⟩ := hmcu c hc
    have hm : f.mcu = nrf52 ∨ f.mcu = msp430 := by
      unfold TargetCfg.firmware at hf
      split at hf
      · cases hf
        exact .inl h1
      · exact .inr (h2 f hf)
    rcases hm with hm | hm
    · rw [hm]
      exact ⟨hsafe.1, by decide, by decide, by decide, by decide⟩
    · rw [hm]
      exact ⟨hsafe.2, by decide, by decide, by decide, by decide⟩)
  exact ⟨ts, hts, (C54_sets fmt clock xp pasture ts hts).1.length_eq.symm⟩

/-! ## Non-vacuity -/

/-- Firmware for the nRF52 and for the MSP430. -/
def fwNrf : Fw := { fwA with mcu := nrf52 }
def fwMsp : Fw := { fwB with mcu := msp430 }

/-- An experiment with all targets but the one for tests, in two configs, one with custom ids. -/
def xpAll : Xp := xpOf [{ cfg [1, 2, 3, 4] (some [101, 102, 103, 104, 105]) with firmware1 := fwNrf, firmware2 := some fwMsp },
  { cfg [5, 6, 7, 8, 9, 10, 11] none with firmware1 := fwNrf, firmware2 := none }]

theorem xpAll_valid : xpAll.validate shippedDb pasture = .ok () := by
  rw [C95_valid_iff]
  decide +kernel

example : ∃ ts, TbTasks.fromXp (fun _ => "now") (fun _ => 7) xpAll pasture = .ok ts ∧ ts.tasks.length = 11 ∧ (ts.outputPaths.map (·.2)).Nodup := by
  obtain ⟨ts, h1, h2⟩ := C95_tasks (fun _ => "now") (fun _ => 7) shippedDb xpAll xpAll_valid (by intro t h k; cases h; decide) (by decide +kernel) (by decide +kernel)
  exact ⟨ts, h1, h2.trans (by decide +kernel), ((C95_experiments _ _ _ _ xpAll_valid).2 ts h1).2.2.2.1⟩

/-- Targets 1 and 1001 are on the same observer. -/
example : ¬Xp.validate shippedDb pasture (xpOf [{ cfg [1, 1001] none with firmware1 := fwNrf, firmware2 := none }]) = .ok () := by
  rw [C95_valid_iff]
  rintro ⟨-, -, -, h, -⟩
  exact h (by decide +kernel)

example : ∃ o, pasture.getObserver 1001 = .ok o ∧ o.id = 5 := by
  obtain ⟨o, -, h⟩ := (C95_targets 1001).1 (by decide)
  exact ⟨o, h⟩

example : pasture.getObserver 12 = .error .valueError := (C95_targets 12).2 (by decide)

end Verif.Props
