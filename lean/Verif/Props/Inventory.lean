import Verif.Model.Inventory
import Verif.Props.Fixtures
import Verif.Props.CutFile
import Verif.Py.Binary64

/-!
# C82, C83: inventories of machines, their warnings and their table
-/

namespace Verif.Props
open Verif.Py Verif.Model

/-! ## Specification -/

/-- The version (or other value) a device reports for a field. -/
def Device.reports (d : Device) (k : String) : Option InvVal := dictGet d.dump k

/-- The hosts that report a value, in the order of the list. -/
def hostsWith (ds : List Device) (k : String) (v : InvVal) : List String := (ds.filter (fun d => Device.reports d k = some v)).map (·.hostname)

/-- Two devices report different values. -/
def Differ (ds : List Device) (k : String) : Prop := ∃ d ∈ ds, ∃ d' ∈ ds, ∃ v v', Device.reports d k = some v ∧ Device.reports d' k = some v' ∧ v ≠ v'

/-- Split a row at `", "`. -/
def splitCells : List Char → List (List Char)
  | [] => [[]]
  | [c] => [[c]]
  | a :: b :: t =>
    if a = ',' ∧ b = ' ' then [] :: splitCells t
    else match splitCells (b :: t) with
      | [] => [[a]]
      | x :: xs => (a :: x) :: xs

/-! ## Lemmas -/

theorem dictSet_keys {κ α : Type} [DecidableEq κ] (k : κ) (v : α) : ∀ d : List (κ × α), (dictSet d k v).map (·.1) = if k ∈ d.map (·.1) then d.map (·.1) else d.map (·.1) ++ [k]
  | [] => by simp [dictSet]
  | (a, b) :: t => by
    have ih := dictSet_keys k v t
    rw [dictSet]
    by_cases h : a = k
    · subst h; simp
    · rw [if_neg h, List.map_cons, ih]
      by_cases h2 : k ∈ t.map (·.1)
      · rw [if_pos h2, if_pos (by simp at h2 ⊢; exact Or.inr h2)]; rfl
      · rw [if_neg h2, if_neg (by
          rw [List.map_cons, List.mem_cons, not_or]; exact ⟨fun e => h e.symm, h2⟩)]
        rfl

theorem dictSet_nodup {κ α : Type} [DecidableEq κ] (k : κ) (v : α) (d : List (κ × α)) (h : (d.map (·.1)).Nodup) : ((dictSet d k v).map (·.1)).Nodup := by
  rw [dictSet_keys]
  split_ifs with hk
  · exact h
  · exact List.nodup_append.mpr ⟨h, by simp, by rintro a ha b hb rfl; rw [List.mem_singleton] at hb; subst hb; exact hk ha⟩

theorem dictGet_none_iff {κ α : Type} [DecidableEq κ] (k : κ) : ∀ d : List (κ × α), dictGet d k = none ↔ k ∉ d.map (·.1)
  | [] => by simp [dictGet]
  | (a, b) :: t => by
    rw [dictGet, List.map_cons, List.mem_cons, not_or]
    by_cases h : a = k
    · subst h; simp
    · rw [if_neg h, dictGet_none_iff k t]
      exact ⟨fun e => ⟨fun e' => h e'.symm, e⟩, fun e => e.2⟩

theorem dictGet_some_mem {κ α : Type} [DecidableEq κ] (k : κ) (v : α) : ∀ d : List (κ × α), dictGet d k = some v → (k, v) ∈ d
  | [], h => by simp [dictGet] at h
  | (a, b) :: t, h => by
    rw [dictGet] at h
    by_cases hk : a = k
    · subst hk; rw [if_pos rfl] at h; cases h; simp
    · rw [if_neg hk] at h; exact List.mem_cons_of_mem _ (dictGet_some_mem k v t h)

theorem dictGet_of_mem {κ α : Type} [DecidableEq κ] (k : κ) (v : α) : ∀ d : List (κ × α), (d.map (·.1)).Nodup → (k, v) ∈ d → dictGet d k = some v
  | [], _, h => by simp at h
  | (a, b) :: t, hn, h => by
    rw [List.map_cons, List.nodup_cons] at hn
    rw [dictGet]
    rcases List.mem_cons.mp h with e | e
    · cases e; rw [if_pos rfl]
    · rw [if_neg (by rintro rfl; exact hn.1 (List.mem_map.mpr ⟨_, e, rfl⟩))]
      exact dictGet_of_mem k v t hn.2 e

/-- The table of all devices, if names are different. -/
theorem table_eq : ∀ (ds : List Device) (t : List (String × List (String × InvVal))), (t.map (·.1) ++ ds.map (·.hostname)).Nodup →
    ds.foldl (fun t d => dictSet t d.hostname d.dump) t = t ++ ds.map (fun d => (d.hostname, d.dump))
  | [], t, _ => by simp
  | d :: ds, t, h => by
    have hd : d.hostname ∉ t.map (·.1) := by
      intro hm
      rw [List.nodup_append] at h
      exact h.2.2 _ hm _ (by simp) rfl
    have hs : dictSet t d.hostname d.dump = t ++ [(d.hostname, d.dump)] := by
      clear h
      induction t with
      | nil => rfl
      | cons e t ih =>
        rw [List.map_cons, List.mem_cons, not_or] at hd
        rw [dictSet, if_neg (Ne.symm hd.1), ih hd.2]; rfl
    rw [List.foldl_cons, hs, table_eq ds _ (by simpa using h)]
    simp

/-- In any table, every entry is the dump of a device. -/
theorem table_mem : ∀ (ds : List Device) (t : List (String × List (String × InvVal))) (P : List (String × InvVal) → Prop), (∀ e ∈ t, P e.2) → (∀ d ∈ ds, P d.dump) →
    ∀ e ∈ ds.foldl (fun t d => dictSet t d.hostname d.dump) t, P e.2
  | [], _, _, ht, _ => ht
  | d :: ds, t, P, ht, hd => by
    rw [List.foldl_cons]
    refine table_mem ds _ P ?_ (fun x hx => hd x (List.mem_cons_of_mem _ hx))
    have : ∀ t : List (String × List (String × InvVal)), (∀ e ∈ t, P e.2) → P d.dump → ∀ e ∈ dictSet t d.hostname d.dump, P e.2 := by
      intro t
      induction t with
      | nil => intro _ h2 e he; rw [dictSet, List.mem_singleton] at he; subst he; exact h2
      | cons x t ih =>
        intro h1 h2 e he
        rw [dictSet] at he
        split_ifs at he with hx
        · rcases List.mem_cons.mp he with rfl | he
          · exact h2
          · exact h1 e (List.mem_cons_of_mem _ he)
        · rcases List.mem_cons.mp he with rfl | he
          · exact h1 _ (by simp)
          · exact ih (fun e he => h1 e (List.mem_cons_of_mem _ he)) h2 e he
    exact this t ht (hd d (by simp))

theorem groupFields_ok (host : String) : ∀ (fs : List (String × InvVal)) (res : List (String × List (InvVal × List String))), (∀ f ∈ fs, f.2.hashable = true) → (fs.map (·.1)).Nodup →
    ∃ res', groupFields host fs res = .ok res' ∧ ∀ k, dictGet res' k = match dictGet fs k with
      | none => dictGet res k
      | some v => some (dictSet ((dictGet res k).getD []) v ((dictGet ((dictGet res k).getD []) v).getD [] ++ [host]))
  | [], res, _, _ => ⟨res, rfl, fun k => rfl⟩
  | (k, v) :: fs, res, hh, hn => by
    rw [List.map_cons, List.nodup_cons] at hn
    obtain ⟨res', h1, h2⟩ := groupFields_ok host fs (dictSet res k (dictSet ((dictGet res k).getD []) v ((dictGet ((dictGet res k).getD []) v).getD [] ++ [host])))
      (fun f hf => hh f (List.mem_cons_of_mem _ hf)) hn.2
    refine ⟨res', ?_, ?_⟩
    · rw [groupFields]
      have : v.hashable = true := hh (k, v) (by simp)
      simpa [this] using h1
    · intro k'
      rw [h2 k', dictGet]
      by_cases hk : k = k'
      · subst hk
        rw [if_pos rfl, (dictGet_none_iff k fs).mpr hn.1]
        simp only [dictGet_set, if_true]
      · rw [if_neg hk]
        simp only [dictGet_set, if_neg (Ne.symm hk)]

theorem groupFields_unhashable (host : String) : ∀ (fs : List (String × InvVal)) (res : List (String × List (InvVal × List String))), (∃ f ∈ fs, f.2.hashable = false) →
    groupFields host fs res = .error .typeError
  | [], _, h => by simp at h
  | (k, v) :: fs, res, h => by
    rw [groupFields]
    cases hv : v.hashable with
    | false => simp
    | true =>
      obtain ⟨f, hf, hh⟩ := h
      rcases List.mem_cons.mp hf with rfl | hf
      · simp [hv] at hh
      · simpa using groupFields_unhashable host fs _ ⟨f, hf, hh⟩

/-- What is known of the groups after the devices of a list. -/
def Grouped (l : List Device) (res : List (String × List (InvVal × List String))) : Prop :=
  ∀ k, match dictGet res k with
    | none => ∀ d ∈ l, Device.reports d k = none
    | some vs => (vs.map (·.1)).Nodup ∧ (∀ v, dictGet vs v = if hostsWith l k v = [] then none else some (hostsWith l k v))

theorem hostsWith_append (l : List Device) (d : Device) (k : String) (v : InvVal) :
    hostsWith (l ++ [d]) k v = hostsWith l k v ++ if Device.reports d k = some v then [d.hostname] else [] := by
  unfold hostsWith
  rw [List.filter_append, List.map_append]
  congr 1
  by_cases h : Device.reports d k = some v <;> simp [h]

theorem groupHosts_ok : ∀ (ds l : List Device) (res : List (String × List (InvVal × List String))), (∀ d ∈ ds, (∀ f ∈ d.dump, f.2.hashable = true) ∧ (d.dump.map (·.1)).Nodup) → Grouped l res →
    ∃ res', groupHosts (ds.map (fun d => (d.hostname, d.dump))) res = .ok res' ∧ Grouped (l ++ ds) res'
  | [], l, res, _, h => ⟨res, rfl, by simpa using h⟩
  | d :: ds, l, res, hd, h => by
    obtain ⟨hh, hn⟩ := hd d (by simp)
    obtain ⟨res', h1, h2⟩ := groupFields_ok d.hostname d.dump res hh hn
    have hg : Grouped (l ++ [d]) res' := by
      intro k
      have hk := h k
      rw [h2 k]
      cases hr : dictGet d.dump k with
      | none =>
        have hr' : Device.reports d k = none := hr
        cases hres : dictGet res k with
        | none =>
          rw [hres] at hk
          simp only at hk ⊢
          intro x hx
          rcases List.mem_append.mp hx with hx | hx
          · exact hk x hx
          · rw [List.mem_singleton] at hx; subst hx; exact hr'
        | some vs =>
          rw [hres] at hk
          simp only at hk ⊢
          refine ⟨hk.1, fun v => ?_⟩
          rw [hk.2 v, hostsWith_append, hr']
          simp
      | some v0 =>
        have hr' : Device.reports d k = some v0 := hr
        simp only
        have key : ∀ b : List (InvVal × List String), (b.map (·.1)).Nodup → (∀ v, dictGet b v = if hostsWith l k v = [] then none else some (hostsWith l k v)) →
            ((dictSet b v0 ((dictGet b v0).getD [] ++ [d.hostname])).map (·.1)).Nodup ∧
            ∀ v, dictGet (dictSet b v0 ((dictGet b v0).getD [] ++ [d.hostname])) v = if hostsWith (l ++ [d]) k v = [] then none else some (hostsWith (l ++ [d]) k v) := by
          intro b hb hv
          refine ⟨dictSet_nodup _ _ _ hb, fun v => ?_⟩
          rw [dictGet_set, hostsWith_append, hr']
          by_cases hvv : v = v0
          · subst hvv
            rw [if_pos rfl, if_pos rfl, if_neg (by simp), hv v]
            by_cases he : hostsWith l k v = []
            · rw [if_pos he, he]; rfl
            · rw [if_neg he]; rfl
          · have hne : ¬ (some v0 = some v) := by intro e; cases e; exact hvv rfl
            rw [if_neg hvv]
            simp only [if_neg hne, List.append_nil]
            exact hv v
        cases hres : dictGet res k with
        | none =>
          rw [hres] at hk
          simp only at hk
          exact key [] (by simp) (fun v => by
            rw [dictGet, if_pos]
            unfold hostsWith
            rw [List.map_eq_nil_iff, List.filter_eq_nil_iff]
            intro x hx
            simp [hk x hx])
        | some vs =>
          rw [hres] at hk
          simp only at hk
          exact key vs hk.1 hk.2
    obtain ⟨res'', h3, h4⟩ := groupHosts_ok ds (l ++ [d]) res' (fun x hx => hd x (List.mem_cons_of_mem _ hx)) hg
    refine ⟨res'', ?_, by simpa using h4⟩
    rw [List.map_cons, groupHosts, h1]
    exact h3

theorem warnDevices_bad (fl : ℚ → ℚ) (e : ℚ) : ∀ ds : List Device, (∃ d ∈ ds, 108000 < d.uptime ∨ 10 < fl (d.stamp fl - e)) → warnDevices fl e ds = .error .attributeError
  | [], h => by simp at h
  | d :: ds, h => by
    rw [warnDevices]
    split_ifs with h1 h2
    · rfl
    · rfl
    · obtain ⟨x, hx, hb⟩ := h
      rcases List.mem_cons.mp hx with rfl | hx
      · rcases hb with hb | hb
        · exact absurd hb h1
        · exact absurd hb h2
      · exact warnDevices_bad fl e ds ⟨x, hx, hb⟩

theorem warnDevices_good (fl : ℚ → ℚ) (e : ℚ) : ∀ ds : List Device, (∀ d ∈ ds, d.uptime ≤ 108000 ∧ fl (d.stamp fl - e) ≤ 10) → warnDevices fl e ds = .ok ()
  | [], _ => rfl
  | d :: ds, h => by
    rw [warnDevices, if_neg (not_lt.mpr (h d (by simp)).1), if_neg (not_lt.mpr (h d (by simp)).2)]
    exact warnDevices_good fl e ds (fun x hx => h x (List.mem_cons_of_mem _ hx))

theorem mismatches_ok (res : List (String × List (InvVal × List String))) : ∀ ks : List String, (∀ k ∈ ks, (dictGet res k).isSome) → ∃ ws, mismatches res ks = .ok ws ∧
    (ws.map (·.1)).Sublist ks ∧ (ks.Nodup → ∀ k vs, (k, vs) ∈ ws ↔ k ∈ ks ∧ dictGet res k = some vs ∧ 1 < vs.length)
  | [], _ => ⟨[], rfl, by simp, by simp⟩
  | k :: ks, h => by
    obtain ⟨ws, h1, h2, h3⟩ := mismatches_ok res ks (fun x hx => h x (List.mem_cons_of_mem _ hx))
    obtain ⟨vs, hvs⟩ := Option.isSome_iff_exists.mp (h k (by simp))
    by_cases hl : 1 < vs.length
    · refine ⟨(k, vs) :: ws, by rw [mismatches, hvs]; simp only; rw [h1]; simp only; rw [if_pos hl], by simpa using h2, ?_⟩
      intro hn k' vs'
      rw [List.nodup_cons] at hn
      rw [List.mem_cons, List.mem_cons, h3 hn.2]
      constructor
      · rintro (e | ⟨a, b, c⟩)
        · cases e; exact ⟨Or.inl rfl, hvs, hl⟩
        · exact ⟨Or.inr a, b, c⟩
      · rintro ⟨rfl | a, b, c⟩
        · rw [hvs] at b; cases b; exact Or.inl rfl
        · exact Or.inr ⟨a, b, c⟩
    · refine ⟨ws, by rw [mismatches, hvs]; simp only; rw [h1]; simp only; rw [if_neg hl], h2.trans (List.sublist_cons_self _ _), ?_⟩
      intro hn k' vs'
      rw [List.nodup_cons] at hn
      rw [List.mem_cons, h3 hn.2]
      constructor
      · rintro ⟨a, b, c⟩; exact ⟨Or.inr a, b, c⟩
      · rintro ⟨rfl | a, b, c⟩
        · rw [hvs] at b; cases b; exact absurd c hl
        · exact ⟨a, b, c⟩

theorem mismatches_missing (res : List (String × List (InvVal × List String))) : ∀ ks : List String, (∃ k ∈ ks, dictGet res k = none) → mismatches res ks = .error .keyError
  | [], h => by simp at h
  | k :: ks, h => by
    rw [mismatches]
    cases hk : dictGet res k with
    | none => rfl
    | some vs =>
      obtain ⟨x, hx, hn⟩ := h
      rcases List.mem_cons.mp hx with rfl | hx
      · rw [hk] at hn; cases hn
      · simp only [mismatches_missing res ks ⟨x, hx, hn⟩]

theorem fl_ten {fl : ℚ → ℚ} (h : Rounding fl) : fl 10 = 10 := by
  have := h.exact 10 0 (by norm_num) (by norm_num)
  simpa using this

/-- Stamps until the year 2096 are exact to half a microsecond. -/
theorem stamp_err {fl : ℚ → ℚ} (h : AccRounding fl) (d : Device) (h0 : 0 ≤ d.created) (h1 : d.created ≤ 4 * 10 ^ 15) : |d.stamp fl - (d.created : ℚ) / 10 ^ 6| < 1 / (2 * 10 ^ 6) - 1 / 10 ^ 8 := by
  have a : (0 : ℚ) ≤ (d.created : ℚ) := by exact_mod_cast h0
  have b : (d.created : ℚ) ≤ 4 * 10 ^ 15 := by exact_mod_cast h1
  have e := err_small h ((d.created : ℚ) / 10 ^ 6) (4 * 10 ^ 9) (by positivity) (by linarith)
  refine lt_of_le_of_lt e ?_
  norm_num

theorem min_stamp (l : List ℚ) (hne : l ≠ []) : ∃ e, l.min? = some e ∧ e ∈ l ∧ ∀ x ∈ l, e ≤ x := by
  cases h : l.min? with
  | none => rw [List.min?_eq_none_iff] at h; exact absurd h hne
  | some e => exact ⟨e, rfl, List.min?_mem h, fun x hx => (List.le_min?_iff h).mp le_rfl x hx⟩

theorem splitCells_ne : ∀ l : List Char, splitCells l ≠ []
  | [] => by simp [splitCells]
  | [c] => by simp [splitCells]
  | a :: b :: t => by
    rw [splitCells]
    split_ifs
    · simp
    · cases splitCells (b :: t) <;> simp

theorem splitCells_append : ∀ x y : List Char, splitCells (x ++ ',' :: ' ' :: y) = splitCells x ++ splitCells y
  | [], y => by simp [splitCells]
  | [c], y => by
    show splitCells (c :: ',' :: (' ' :: y)) = _
    conv_lhs => rw [splitCells, if_neg (by simp), splitCells, if_pos ⟨rfl, rfl⟩]
    rfl
  | a :: b :: t, y => by
    show splitCells (a :: b :: (t ++ ',' :: ' ' :: y)) = _
    rw [splitCells, splitCells]
    by_cases h : a = ',' ∧ b = ' '
    · rw [if_pos h, if_pos h, splitCells_append t y]; rfl
    · rw [if_neg h, if_neg h]
      have ih := splitCells_append (b :: t) y
      rw [List.cons_append] at ih
      rw [ih]
      have hne := splitCells_ne (b :: t)
      cases hs : splitCells (b :: t) with
      | nil => exact absurd hs hne
      | cons u us => rfl

theorem splitCells_join : ∀ cells : List (List Char), cells ≠ [] → splitCells (joinCells cells) = cells.flatMap splitCells
  | [], h => absurd rfl h
  | [c], _ => by simp [joinCells]
  | a :: b :: t, _ => by
    have ih := splitCells_join (b :: t) (by simp)
    have : joinCells (a :: b :: t) = a ++ ',' :: ' ' :: joinCells (b :: t) := by simp [joinCells]
    rw [this, splitCells_append, ih]
    rfl

/-! ## C82 -/

/-- Full statement of C82, refuted below: for every list of inventories, the warnings name the devices that run for more than 30 hours, those with a late clock and the packages with different versions. -/
theorem C82_restart_violated (fl : ℚ → ℚ) (ds : List Device) (hup : ∃ d ∈ ds, 108000 < d.uptime) : warnInventory fl ds = .error .attributeError := by
  obtain ⟨d, hd, hu⟩ := hup
  obtain ⟨e, he, _, _⟩ := min_stamp (ds.map (Device.stamp fl)) (by simp; rintro rfl; simp at hd)
  unfold warnInventory
  rw [he]
  simp only [warnDevices_bad fl e ds ⟨d, hd, Or.inl hu⟩]

/-- A clock that is late by more than 10 s is not reported either: the call raises. -/
theorem C82_clock_violated {fl : ℚ → ℚ} (hf : AccRounding fl) (ds : List Device) (hyear : ∀ d ∈ ds, 0 ≤ d.created ∧ d.created ≤ 4 * 10 ^ 15)
    (hlate : ∃ d ∈ ds, ∃ d' ∈ ds, d'.created + 10 * 10 ^ 6 < d.created) : warnInventory fl ds = .error .attributeError := by
  obtain ⟨d, hd, d', hd', hl⟩ := hlate
  obtain ⟨e, he, _, hmin⟩ := min_stamp (ds.map (Device.stamp fl)) (by simp; rintro rfl; simp at hd)
  unfold warnInventory
  rw [he]
  have h1 := abs_lt.mp (stamp_err hf d (hyear d hd).1 (hyear d hd).2)
  have h2 := abs_lt.mp (stamp_err hf d' (hyear d' hd').1 (hyear d' hd').2)
  have h3 := hmin _ (List.mem_map.mpr ⟨d', hd', rfl⟩)
  have h4 : (d'.created : ℚ) + 10 * 10 ^ 6 + 1 ≤ d.created := by exact_mod_cast Int.add_one_le_iff.mpr hl
  have h5 : 10 + 1 / 10 ^ 8 ≤ d.stamp fl - e := by linarith
  have h6 : 10 < fl (d.stamp fl - e) := by
    have m := hf.toRounding.mono h5
    have e2 := abs_le.mp (err_small hf (10 + 1 / 10 ^ 8) 11 (by norm_num) (by norm_num))
    have : (11 : ℚ) / 2 ^ 53 + 1 / 2 ^ 53 < 1 / 10 ^ 8 := by norm_num
    linarith
  simp only [warnDevices_bad fl e ds ⟨d, hd, Or.inr h6⟩]

theorem collect_unhashable (m : Machine) (d : Device) (h : collectInventory m = .ok d) : ∃ f ∈ d.dump, f.2.hashable = false := by
  unfold collectInventory at h
  simp only at h
  split_ifs at h with h1 h2
  cases hp : collectPython m with
  | error e => rw [hp] at h; simp at h
  | ok pid =>
    rw [hp] at h
    simp only at h
    split_ifs at h with h3
    cases h
    refine ⟨("fs_root", .list (m.fsRoot.getD [])), ?_, rfl⟩
    simp [Device.dump, systemFields]

/-- No list of inventories that were collected yields warnings. -/
theorem C82_collected_violated (fl : ℚ → ℚ) (ds : List Device) (hcol : ∀ d ∈ ds, ∃ m, collectInventory m = .ok d) : ∃ e, warnInventory fl ds = .error e := by
  unfold warnInventory
  cases ds with
  | nil => exact ⟨_, rfl⟩
  | cons d ds =>
    obtain ⟨e, he, _, _⟩ := min_stamp ((d :: ds).map (Device.stamp fl)) (by simp)
    rw [he]
    simp only
    cases hw : warnDevices fl e (d :: ds) with
    | error e => exact ⟨_, rfl⟩
    | ok _ =>
      simp only
      have hall := table_mem (d :: ds) [] (fun fs => ∃ f ∈ fs, f.2.hashable = false) (by simp) (fun x hx => by
        obtain ⟨m, hm⟩ := hcol x hx
        exact collect_unhashable m x hm)
      cases ht : (d :: ds).foldl (fun t d => dictSet t d.hostname d.dump) [] with
      | nil =>
        exfalso
        have hlen : ∀ (l : List Device) (t : List (String × List (String × InvVal))), t ≠ [] → l.foldl (fun t d => dictSet t d.hostname d.dump) t ≠ [] := by
          intro l
          induction l with
          | nil => intro t h; simpa using h
          | cons x l ih =>
            intro t h
            rw [List.foldl_cons]
            refine ih _ ?_
            cases t with
            | nil => exact absurd rfl h
            | cons y t => rw [dictSet]; split_ifs <;> simp
        rw [List.foldl_cons] at ht
        exact hlen ds _ (by simp [dictSet]) ht
      | cons y t =>
        rw [ht] at hall
        refine ⟨.typeError, ?_⟩
        obtain ⟨host, fs⟩ := y
        rw [groupHosts, groupFields_unhashable host fs [] (hall (host, fs) (by simp))]

/-- A package that is on no device at all makes the call fail. -/
theorem C82_missing_violated (fl : ℚ → ℚ) (ds : List Device) (k : String) (hk : k ∈ uniquePackages) (hnone : ∀ d ∈ ds, Device.reports d k = none) : ∃ e, warnInventory fl ds = .error e := by
  unfold warnInventory
  cases (ds.map (Device.stamp fl)).min? with
  | none => exact ⟨_, rfl⟩
  | some e =>
    simp only
    cases warnDevices fl e ds with
    | error e => exact ⟨_, rfl⟩
    | ok _ =>
      simp only
      cases hg : groupHosts (ds.foldl (fun t d => dictSet t d.hostname d.dump) []) [] with
      | error e => exact ⟨_, rfl⟩
      | ok res =>
        simp only
        refine ⟨.keyError, mismatches_missing res _ ⟨k, hk, ?_⟩⟩
        have hall := table_mem ds [] (fun fs => dictGet fs k = none) (by simp) hnone
        revert hg hall
        generalize ds.foldl (fun t d => dictSet t d.hostname d.dump) [] = tab
        have inner : ∀ (host : String) (fs : List (String × InvVal)) (r r' : List (String × List (InvVal × List String))), dictGet fs k = none → dictGet r k = none → groupFields host fs r = .ok r' → dictGet r' k = none := by
          intro host fs
          induction fs with
          | nil => intro r r' _ h2 h3; cases h3; exact h2
          | cons f fs ih =>
            intro r r' h1 h2 h3
            obtain ⟨a, v⟩ := f
            rw [dictGet] at h1
            split_ifs at h1 with hak
            rw [groupFields] at h3
            split_ifs at h3
            exact ih _ r' h1 (by rw [dictGet_set, if_neg (Ne.symm hak)]; exact h2) h3
        have outer : ∀ (tab : List (String × List (String × InvVal))) (r r' : List (String × List (InvVal × List String))), (∀ e ∈ tab, dictGet e.2 k = none) → dictGet r k = none → groupHosts tab r = .ok r' → dictGet r' k = none := by
          intro tab
          induction tab with
          | nil => intro r r' _ h2 h3; cases h3; exact h2
          | cons f tab ih =>
            intro r r' h1 h2 h3
            obtain ⟨host, fs⟩ := f
            rw [groupHosts] at h3
            cases hf : groupFields host fs r with
            | error e => rw [hf] at h3; cases h3
            | ok r1 =>
              rw [hf] at h3
              exact ih r1 r' (fun e he => h1 e (List.mem_cons_of_mem _ he)) (inner host fs r r1 (h1 (host, fs) (by simp)) h2 hf) h3
        intro hg hall
        exact outer tab [] res hall rfl hg

/-- For devices that need no restart, have clocks within 10 s and only single values as fields, exactly the packages with different versions are listed, each with the hosts of each version. -/
theorem C82_versions_partial {fl : ℚ → ℚ} (hf : AccRounding fl) (ds : List Device) (hne : ds ≠ []) (hup : ∀ d ∈ ds, d.uptime ≤ 108000) (hyear : ∀ d ∈ ds, 0 ≤ d.created ∧ d.created ≤ 4 * 10 ^ 15)
    (hsync : ∀ d ∈ ds, ∀ d' ∈ ds, d.created < d'.created + 10 * 10 ^ 6) (hnames : (ds.map (·.hostname)).Nodup)
    (hfields : ∀ d ∈ ds, (∀ f ∈ d.dump, f.2.hashable = true) ∧ (d.dump.map (·.1)).Nodup) (hpkg : ∀ k ∈ uniquePackages, ∃ d ∈ ds, (Device.reports d k).isSome) :
    ∃ ws, warnInventory fl ds = .ok ws ∧ (ws.map (·.1)).Sublist uniquePackages ∧ (∀ k ∈ uniquePackages, k ∈ ws.map (·.1) ↔ Differ ds k) ∧
      ∀ k vs, (k, vs) ∈ ws → (vs.map (·.1)).Nodup ∧ ∀ v hosts, (v, hosts) ∈ vs ↔ hosts = hostsWith ds k v ∧ hosts ≠ [] := by
  obtain ⟨e, he, hmem, hmin⟩ := min_stamp (ds.map (Device.stamp fl)) (by simpa using hne)
  have hgood : warnDevices fl e ds = .ok () := by
    refine warnDevices_good fl e ds (fun d hd => ⟨hup d hd, ?_⟩)
    obtain ⟨d', hd', rfl⟩ := List.mem_map.mp hmem
    have h1 := abs_lt.mp (stamp_err hf d (hyear d hd).1 (hyear d hd).2)
    have h2 := abs_lt.mp (stamp_err hf d' (hyear d' hd').1 (hyear d' hd').2)
    have h4 : (d.created : ℚ) + 1 ≤ d'.created + 10 * 10 ^ 6 := by exact_mod_cast Int.add_one_le_iff.mpr (hsync d hd d' hd')
    have h5 : d.stamp fl - d'.stamp fl ≤ 10 := by linarith
    have := hf.toRounding.mono h5
    rwa [fl_ten hf.toRounding] at this
  have ht := table_eq ds [] (by simpa using hnames)
  rw [List.nil_append] at ht
  obtain ⟨res, hg1, hg2⟩ := groupHosts_ok ds [] [] hfields (by intro k; rw [dictGet]; simp)
  rw [List.nil_append] at hg2
  have hsome : ∀ k ∈ uniquePackages, (dictGet res k).isSome := by
    intro k hk
    obtain ⟨d, hd, hs⟩ := hpkg k hk
    have := hg2 k
    cases hr : dictGet res k with
    | none => rw [hr] at this; simp only at this; rw [this d hd] at hs; simp at hs
    | some vs => rfl
  obtain ⟨ws, hw1, hw2, hw3⟩ := mismatches_ok res uniquePackages hsome
  replace hw3 := hw3 (by decide)
  refine ⟨ws, ?_, hw2, ?_, ?_⟩
  · unfold warnInventory
    rw [he]
    simp only [hgood]
    rw [ht, hg1]
    exact hw1
  · intro k hk
    obtain ⟨vs, hvs⟩ := Option.isSome_iff_exists.mp (hsome k hk)
    have hgk := hg2 k
    rw [hvs] at hgk
    simp only at hgk
    obtain ⟨hnd, hget⟩ := hgk
    have hmemv : ∀ v, v ∈ vs.map (·.1) ↔ ∃ d ∈ ds, Device.reports d k = some v := by
      intro v
      have h1 := hget v
      have h2 := dictGet_none_iff v vs
      constructor
      · intro hv
        by_contra hc
        push Not at hc
        have : hostsWith ds k v = [] := by
          unfold hostsWith
          rw [List.map_eq_nil_iff, List.filter_eq_nil_iff]
          intro x hx; simpa using hc x hx
        rw [if_pos this] at h1
        exact h2.mp h1 hv
      · rintro ⟨d, hd, hr⟩
        by_contra hv
        have hn := h2.mpr hv
        rw [h1] at hn
        split_ifs at hn with hh
        unfold hostsWith at hh
        rw [List.map_eq_nil_iff, List.filter_eq_nil_iff] at hh
        exact hh d hd (by simpa using hr)
    constructor
    · intro hm
      obtain ⟨⟨k', vs'⟩, hin, rfl⟩ := List.mem_map.mp hm
      obtain ⟨_, hg, hl⟩ := (hw3 k' vs').mp hin
      rw [hvs] at hg; cases hg
      match vs, hl, hnd, hmemv with
      | a :: b :: t, _, hnd, hmemv =>
        obtain ⟨d, hd, hr⟩ := (hmemv a.1).mp (by simp)
        obtain ⟨d', hd', hr'⟩ := (hmemv b.1).mp (by simp)
        refine ⟨d, hd, d', hd', _, _, hr, hr', ?_⟩
        rw [List.map_cons, List.map_cons, List.nodup_cons, List.mem_cons, not_or] at hnd
        exact hnd.1.1
    · rintro ⟨d, hd, d', hd', v, v', hr, hr', hvv⟩
      refine List.mem_map.mpr ⟨(k, vs), (hw3 k vs).mpr ⟨hk, hvs, ?_⟩, rfl⟩
      have a := (hmemv v).mpr ⟨d, hd, hr⟩
      have b := (hmemv v').mpr ⟨d', hd', hr'⟩
      match vs, a, b with
      | [], a, _ => simp at a
      | [x], a, b =>
        rw [List.map_cons, List.map_nil, List.mem_singleton] at a b
        exact absurd (a.trans b.symm) hvv
      | x :: y :: t, _, _ => simp
  · intro k vs hin
    obtain ⟨_, hg, _⟩ := (hw3 k vs).mp hin
    have hgk := hg2 k
    rw [hg] at hgk
    simp only at hgk
    refine ⟨hgk.1, fun v hosts => ?_⟩
    constructor
    · intro hm
      have := dictGet_of_mem v hosts vs hgk.1 hm
      rw [hgk.2 v] at this
      split_ifs at this with hh
      cases this
      exact ⟨rfl, hh⟩
    · rintro ⟨rfl, hh⟩
      have := hgk.2 v
      rw [if_neg hh] at this
      exact dictGet_some_mem v _ vs this

/-! ## Collecting -/

/-- Without the (optional) package psutil no inventory can be collected. -/
theorem C82_psutil_violated (m : Machine) (h : m.psutil = none) : collectInventory m = .error .valueError := by
  unfold collectInventory
  rw [h]
  simp only
  rw [if_pos (by decide +kernel)]

theorem dictGet_append {κ α : Type} [DecidableEq κ] (k : κ) : ∀ a b : List (κ × α), dictGet (a ++ b) k = match dictGet a k with | some v => some v | none => dictGet b k
  | [], b => by simp [dictGet]
  | (x, y) :: a, b => by
    rw [List.cons_append, dictGet, dictGet]
    by_cases h : x = k
    · rw [if_pos h, if_pos h]
    · rw [if_neg h, if_neg h, dictGet_append k a b]

theorem moduleVersions_ok (m : Machine) (hmod : ∀ n, m.modules n ≠ .unversioned) : ∀ ns : List String, ∃ vs, moduleVersions m ns = .ok vs ∧
    (∀ f ∈ vs, ∃ v, f.2 = .text v ∧ m.modules f.1 = .version v) ∧ ∀ k, dictGet vs k = if k ∈ ns then (match m.modules k with | .version v => some (.text v) | _ => none) else none
  | [] => ⟨[], rfl, by simp, by simp [dictGet]⟩
  | n :: ns => by
    obtain ⟨vs, h1, h2, h3⟩ := moduleVersions_ok m hmod ns
    cases hn : m.modules n with
    | missing =>
      refine ⟨vs, by rw [moduleVersions, hn]; exact h1, h2, fun k => ?_⟩
      rw [h3 k]
      by_cases hk : k = n
      · subst hk; rw [hn]; simp
      · simp [hk]
    | unversioned => exact absurd hn (hmod n)
    | version v =>
      refine ⟨(n, .text v) :: vs, by rw [moduleVersions, hn]; simp only [h1], ?_, fun k => ?_⟩
      · intro f hf
        rcases List.mem_cons.mp hf with rfl | hf
        · exact ⟨v, rfl, hn⟩
        · exact h2 f hf
      · rw [dictGet, h3 k]
        by_cases hk : n = k
        · subst hk; rw [if_pos rfl, hn]; simp
        · rw [if_neg hk]; simp [Ne.symm hk]

theorem systemFields_names (m : Machine) (ifs : List (String × String × String)) : ∀ n ∈ uniquePackages, dictGet (systemFields m ifs) n = none := by
  intro n hn
  rw [dictGet_none_iff]
  intro hm
  have hsub : n ∈ ["system", "release", "version", "machine", "processor", "ptp", "interfaces", "fs_root", "beagle"] := by
    unfold systemFields at hm
    rw [List.map_append, List.map_append, List.map_append, List.mem_append, List.mem_append, List.mem_append] at hm
    rcases hm with ((hm | hm) | hm) | hm
    · simp only [List.map_cons, List.map_nil] at hm
      revert hm; simp only [List.mem_cons]; tauto
    · cases hp : m.ptp with
      | none => rw [hp] at hm; simp at hm
      | some x => rw [hp] at hm; simp at hm; simp [hm]
    · split_ifs at hm
      · simp at hm
      · simp at hm; simp [hm]
    · simp only [List.map_cons, List.map_nil] at hm
      revert hm; simp only [List.mem_cons]; tauto
  revert hsub
  unfold uniquePackages at hn
  simp only [List.mem_cons, List.not_mem_nil, or_false] at hn
  rcases hn with rfl | rfl | rfl | rfl | rfl | rfl | rfl | rfl <;> decide

/-- With it, and texts that are not too long, an inventory names the host, the time, the time since the start and the version of every installed package. -/
theorem C82_collect (m : Machine) (s : ℚ) (a : List (String × List String)) (hps : m.psutil = some (s, a)) (hs : 1 ≤ s)
    (hmod : ∀ n, m.modules n ≠ .unversioned) (hlen : m.python.length ≤ 512 ∧ m.hostname.length ≤ 512 ∧ (∀ n v, m.modules n = .version v → v.length ≤ 512) ∧ ∀ f ∈ systemFields m (interfaces a), f.2.fits = true) :
    ∃ d, collectInventory m = .ok d ∧ d.hostname = m.hostname ∧ d.created = m.now ∧ d.uptime = pyRound s ∧ Device.reports d "python" = some (.text m.python) ∧
      ∀ n ∈ uniquePackages, n ≠ "python" → Device.reports d n = match m.modules n with | .version v => some (.text v) | _ => none := by
  obtain ⟨vs, h1, h2, h3⟩ := moduleVersions_ok m hmod ["h5py", "numpy", "pydantic", "shepherd_core", "shepherd_sheep", "yaml", "zstandard"]
  have hr : 1 ≤ pyRound s := intCast_le_pyRound (by exact_mod_cast hs)
  have hsid : (systemFields m (interfaces a)).all (·.2.fits) = true := List.all_eq_true.mpr (fun f hf => hlen.2.2.2 f hf)
  have hpid : ((("python", InvVal.text m.python) :: vs).all (·.2.fits)) = true := by
    rw [List.all_cons, Bool.and_eq_true, List.all_eq_true]
    refine ⟨by simpa [InvVal.fits] using hlen.1, fun f hf => ?_⟩
    obtain ⟨v, hv, hm⟩ := h2 f hf
    rw [hv]
    simpa [InvVal.fits] using hlen.2.2.1 _ v hm
  refine ⟨⟨m.hostname, m.now, pyRound s, ("python", .text m.python) :: vs ++ ("timestamp", .num m.now) :: systemFields m (interfaces a)⟩, ?_, rfl, rfl, rfl, ?_, ?_⟩
  · unfold collectInventory
    rw [hps]
    simp only
    rw [if_neg (by omega), if_neg (by rw [hsid]; simpa using hlen.2.1)]
    unfold collectPython
    rw [h1]
    simp only
    rw [hpid]
    rfl
  · rfl
  · intro n hn hp
    have hne : n ≠ "hostname" ∧ n ≠ "created" ∧ n ≠ "uptime" ∧ n ≠ "timestamp" ∧ n ∈ ["h5py", "numpy", "pydantic", "shepherd_core", "shepherd_sheep", "yaml", "zstandard"] := by
      have hn' := hn
      unfold uniquePackages at hn'
      simp only [List.mem_cons, List.not_mem_nil, or_false] at hn'
      rcases hn' with rfl | rfl | rfl | rfl | rfl | rfl | rfl | rfl <;> first | exact absurd rfl hp | decide
    unfold Device.reports Device.dump
    simp only [List.cons_append]
    rw [dictGet, if_neg (Ne.symm hne.1), dictGet, if_neg (Ne.symm hne.2.1), dictGet, if_neg (Ne.symm hne.2.2.1), dictGet, if_neg (Ne.symm hp), dictGet_append, h3 n, if_pos hne.2.2.2.2]
    rw [dictGet, if_neg (Ne.symm hne.2.2.2.1), systemFields_names m _ n hn]
    cases m.modules n <;> rfl

/-- Two machines with different versions of a package (nothing but single values in their inventories). -/
def exampleDevices : List Device :=
  [⟨"sheep0", 1700000000 * 10 ^ 6, 3600, [("h5py", .text "3.9"), ("numpy", .text "1.26"), ("pydantic", .text "2.5"), ("python", .text "3.11"), ("shepherd_core", .text "2024.4"), ("shepherd_sheep", .text "0.7"), ("yaml", .text "6"), ("zstandard", .text "0.22")]⟩,
   ⟨"sheep1", 1700000003 * 10 ^ 6, 7200, [("h5py", .text "3.9"), ("numpy", .text "1.25"), ("pydantic", .text "2.5"), ("python", .text "3.11"), ("shepherd_core", .text "2024.4"), ("shepherd_sheep", .text "0.7"), ("yaml", .text "6"), ("zstandard", .text "0.22")]⟩]

example : (exampleDevices ≠ [] ∧ (∀ d ∈ exampleDevices, d.uptime ≤ 108000) ∧ (∀ d ∈ exampleDevices, 0 ≤ d.created ∧ d.created ≤ 4 * 10 ^ 15) ∧
    (∀ d ∈ exampleDevices, ∀ d' ∈ exampleDevices, d.created < d'.created + 10 * 10 ^ 6) ∧ (exampleDevices.map (·.hostname)).Nodup ∧
    (∀ d ∈ exampleDevices, (∀ f ∈ d.dump, f.2.hashable = true) ∧ (d.dump.map (·.1)).Nodup) ∧ ∀ k ∈ uniquePackages, ∃ d ∈ exampleDevices, (Device.reports d k).isSome) ∧
    warnInventory b64 exampleDevices = .ok [("numpy", [(.text "1.26", ["sheep0"]), (.text "1.25", ["sheep1"])])] := by
  refine ⟨⟨by decide, by decide, by decide, by decide, by decide, by decide, by decide +kernel⟩, by decide +kernel⟩

/-! ## C83 -/

/-- A row splits into the cells of its columns, and those split further. -/
theorem C83_cells (strNum : ℤ → List Char) (ds : List Device) : (inventoryCsv strNum ds).map splitCells =
    inventoryColumns.map String.toList :: ds.map (fun d => inventoryColumns.flatMap (fun k => splitCells (cellText strNum (d.field k)))) := by
  unfold inventoryCsv
  rw [List.map_cons, List.map_map]
  have h1 : splitCells (joinCells (inventoryColumns.map String.toList)) = inventoryColumns.map String.toList := by decide +kernel
  rw [h1]
  congr 1
  refine List.map_congr_left (fun d _ => ?_)
  show splitCells (joinCells _) = _
  rw [splitCells_join _ (by simp [inventoryColumns]), List.flatMap_map]

/-- **C83, values.**  The cell of a field with a value shows this value; fields without one are empty, except for the empty table of interfaces and the empty list of targets. -/
theorem C83_values (strNum : ℤ → List Char) (d : Device) (k : String) :
    (∀ v, (k, v) ∈ d.dump → (d.dump.map (·.1)).Nodup → d.field k = some v) ∧
    ((∀ v, (k, v) ∉ d.dump) → cellText strNum (d.field k) = if k = "interfaces" then ['{', '}'] else if k = "targets" then ['[', ']'] else []) := by
  constructor
  · intro v hv hn
    unfold Device.field
    have : dictGet d.dump k = some v := by
      generalize d.dump = l at hv hn
      induction l with
      | nil => cases hv
      | cons e t ih =>
        obtain ⟨k', w⟩ := e
        rw [List.map_cons, List.nodup_cons] at hn
        simp only [dictGet]
        rcases List.mem_cons.mp hv with h | h
        · rw [Prod.mk.injEq] at h
          rw [if_pos h.1.symm, h.2]
        · have hne : k' ≠ k := fun he => hn.1 (List.mem_map.mpr ⟨(k, v), h, he.symm⟩)
          rw [if_neg hne]
          exact ih h hn.2
    rw [this]
  · intro h
    have : dictGet d.dump k = none := by
      generalize d.dump = l at h
      induction l with
      | nil => rfl
      | cons e t ih =>
        obtain ⟨k', w⟩ := e
        simp only [dictGet]
        have hne : k' ≠ k := fun he => h w (by rw [he]; exact List.mem_cons_self)
        rw [if_neg hne, ih (fun v hv => h v (List.mem_cons_of_mem _ hv))]
    unfold Device.field
    rw [this]
    by_cases h1 : k = "interfaces"
    · rw [if_pos h1, if_pos h1]; simp [cellText, strTable]
    · by_cases h2 : k = "targets"
      · rw [if_neg h1, if_pos h2, if_neg h1, if_pos h2]; simp [cellText, strList]
      · rw [if_neg h1, if_neg h2, if_neg h1, if_neg h2]; rfl

/-- The first of the devices above has no interfaces and no targets, but a version of numpy. -/
example : ∃ d ∈ exampleDevices, (∀ v, ("targets", v) ∉ d.dump) ∧ ("numpy", .text "1.26") ∈ d.dump ∧ (d.dump.map (·.1)).Nodup :=
  ⟨exampleDevices[0], List.getElem_mem _, by intro v h; revert h; simp [exampleDevices, Device.dump], by decide, by decide⟩

theorem splitCells_flatten : ∀ l : List Char, joinCells (splitCells l) = l
  | [] => rfl
  | [c] => rfl
  | a :: b :: t => by
    rw [splitCells]
    have hj : ∀ (x : List Char) (xs : List (List Char)), joinCells (x :: xs) = x ++ match xs with | [] => [] | _ :: _ => ',' :: ' ' :: joinCells xs := by
      intro x xs; cases xs <;> simp [joinCells]
    split_ifs with h
    · obtain ⟨rfl, rfl⟩ := h
      have ih := splitCells_flatten t
      have hne := splitCells_ne t
      cases hs : splitCells t with
      | nil => exact absurd hs hne
      | cons u us => rw [hs] at ih; rw [hj]; simp [ih]
    · have ih := splitCells_flatten (b :: t)
      have hne := splitCells_ne (b :: t)
      cases hs : splitCells (b :: t) with
      | nil => exact absurd hs hne
      | cons u us => rw [hs] at ih; rw [hj] at ih; rw [hj, List.cons_append, ih]

theorem splitCells_single (l : List Char) (h : (splitCells l).length = 1) : splitCells l = [l] := by
  have hf := splitCells_flatten l
  match hs : splitCells l, h with
  | [x], _ => rw [hs] at hf; simp [joinCells] at hf; rw [hf]

/-- If no value contains `", "`, every row has one cell for each column, and the cell is the value of the field. -/
theorem C83_rows_partial (strNum : ℤ → List Char) (ds : List Device) (hclean : ∀ d ∈ ds, ∀ k ∈ inventoryColumns, ¬ [',', ' '] <:+: cellText strNum (d.field k)) :
    (inventoryCsv strNum ds).map splitCells = inventoryColumns.map String.toList :: ds.map (fun d => inventoryColumns.map (fun k => cellText strNum (d.field k))) := by
  rw [C83_cells]
  congr 1
  refine List.map_congr_left (fun d hd => ?_)
  have : ∀ l : List Char, ¬ [',', ' '] <:+: l → splitCells l = [l] := by
    intro l
    fun_induction splitCells l with
    | case1 => intro _; rfl
    | case2 => intro _; rfl
    | case3 a b t hab => intro hc; obtain ⟨rfl, rfl⟩ := hab; exact absurd ⟨[], t, by simp⟩ hc
    | case4 a b t hab hs => exact absurd hs (splitCells_ne _)
    | case5 a b t hab x xs hs ih =>
      intro hc
      have := ih (fun hi => hc (hi.trans (List.suffix_cons a (b :: t)).isInfix))
      rw [hs] at this
      cases this
      rfl
  generalize hcols : inventoryColumns = cols at hclean ⊢
  have hc := hclean d hd
  clear hclean hcols
  induction cols with
  | nil => rfl
  | cons k ks ih =>
    rw [List.flatMap_cons, List.map_cons, this _ (hc k (by simp)), ih (fun x hx => hc x (List.mem_cons_of_mem _ hx))]
    rfl

/-- A list of two or more entries shifts all the columns after it. -/
theorem C83_lists_violated (strNum : ℤ → List Char) (ds : List Device) (d : Device) (hd : d ∈ ds) (k : String) (hk : k ∈ inventoryColumns) (l : List String) (hl : d.field k = some (.list l)) (h2 : 2 ≤ l.length) :
    ∃ row ∈ (inventoryCsv strNum ds).tail.map splitCells, inventoryColumns.length < row.length := by
  have hc := C83_cells strNum ds
  have htail : (inventoryCsv strNum ds).tail.map splitCells = ds.map (fun d => inventoryColumns.flatMap (fun k => splitCells (cellText strNum (d.field k)))) := by
    rw [List.map_tail, hc]; rfl
  rw [htail]
  refine ⟨_, List.mem_map.mpr ⟨d, hd, rfl⟩, ?_⟩
  have hlong : 2 ≤ (splitCells (cellText strNum (d.field k))).length := by
    rw [hl]
    match l, h2 with
    | a :: b :: t, _ =>
      have : cellText strNum (some (.list (a :: b :: t))) = ('[' :: '\'' :: a.toList ++ ['\'']) ++ ',' :: ' ' ::
          ((List.intersperse [',', ' '] ((b :: t).map (fun s => '\'' :: s.toList ++ ['\'']))).flatten ++ [']']) := by
        simp [cellText, strList]
      rw [this, splitCells_append, List.length_append]
      have h1 := List.length_pos_of_ne_nil (splitCells_ne ('[' :: '\'' :: a.toList ++ ['\'']))
      have h2 := List.length_pos_of_ne_nil (splitCells_ne ((List.intersperse [',', ' '] ((b :: t).map (fun s => '\'' :: s.toList ++ ['\'']))).flatten ++ [']']))
      omega
  generalize inventoryColumns = cols at hk
  have hge : ∀ cs : List String, cs.length ≤ (cs.flatMap (fun k => splitCells (cellText strNum (d.field k)))).length := by
    intro cs
    induction cs with
    | nil => simp
    | cons c cs ih =>
      rw [List.flatMap_cons, List.length_append, List.length_cons]
      have := List.length_pos_of_ne_nil (splitCells_ne (cellText strNum (d.field c)))
      omega
  induction cols with
  | nil => simp at hk
  | cons c cs ih =>
    rw [List.flatMap_cons, List.length_append, List.length_cons]
    rcases List.mem_cons.mp hk with rfl | hk
    · have := hge cs; omega
    · have := ih hk
      have := List.length_pos_of_ne_nil (splitCells_ne (cellText strNum (d.field c)))
      omega

theorem moduleVersions_names (m : Machine) : ∀ (ns : List String) (vs : List (String × InvVal)), moduleVersions m ns = .ok vs → ∀ f ∈ vs, f.1 ∈ ns
  | [], vs, h => by cases h; simp
  | n :: ns, vs, h => by
    rw [moduleVersions] at h
    cases hn : m.modules n with
    | missing => rw [hn] at h; exact fun f hf => List.mem_cons_of_mem _ (moduleVersions_names m ns vs h f hf)
    | unversioned => rw [hn] at h; cases h
    | version v =>
      rw [hn] at h
      cases hr : moduleVersions m ns with
      | error e => rw [hr] at h; cases h
      | ok rest =>
        rw [hr] at h
        cases h
        intro f hf
        rcases List.mem_cons.mp hf with rfl | hf
        · simp
        · exact List.mem_cons_of_mem _ (moduleVersions_names m ns rest hr f hf)

theorem collect_fsRoot (m : Machine) (d : Device) (h : collectInventory m = .ok d) : d.field "fs_root" = some (.list (m.fsRoot.getD [])) := by
  unfold collectInventory at h
  simp only at h
  split_ifs at h with h1 h2
  unfold collectPython at h
  cases hp : moduleVersions m ["h5py", "numpy", "pydantic", "shepherd_core", "shepherd_sheep", "yaml", "zstandard"] with
  | error e => rw [hp] at h; simp at h
  | ok vs =>
    rw [hp] at h
    simp only at h
    split_ifs at h with h3
    cases h
    have hv : dictGet vs "fs_root" = none := by
      rw [dictGet_none_iff]
      intro hm
      obtain ⟨f, hf, he⟩ := List.mem_map.mp hm
      have := moduleVersions_names m _ vs hp f hf
      rw [he] at this
      revert this
      decide
    have hd : ∀ (a b c : InvVal) (x : List (String × InvVal)), dictGet (("hostname", a) :: ("created", b) :: ("uptime", c) :: x) "fs_root" = dictGet x "fs_root" := by
      intro a b c x; simp [dictGet]
    unfold Device.field Device.dump
    rw [hd]
    have hg : ∀ ifs : List (String × String × String), dictGet (systemFields m ifs) "fs_root" = some (.list (m.fsRoot.getD [])) := by
      intro ifs
      unfold systemFields
      rw [dictGet_append, dictGet_append, dictGet_append]
      cases m.ptp <;> by_cases hi : ifs = [] <;> simp [dictGet, hi]
    rw [List.cons_append, dictGet, if_neg (by decide), dictGet_append, hv]
    simp only
    rw [dictGet, if_neg (by decide), hg]

/-- This is the case for every machine on which the command `df` prints two lines. -/
theorem C83_df_violated (strNum : ℤ → List Char) (ds : List Device) (d : Device) (hd : d ∈ ds) (m : Machine) (hm : collectInventory m = .ok d) (out : List String) (hout : m.fsRoot = some out) (h2 : 2 ≤ out.length) :
    ∃ row ∈ (inventoryCsv strNum ds).tail.map splitCells, inventoryColumns.length < row.length := by
  have h := collect_fsRoot m d hm
  rw [hout] at h
  exact C83_lists_violated strNum ds d hd "fs_root" (by decide) out h h2

/-- A machine of a testbed. -/
def exampleMachine : Machine :=
  ⟨"3.11", fun n => if n = "shepherd_sheep" then .missing else .version "1", 1700000000 * 10 ^ 6, some (3600, [("eth0", ["10.0.0.3", "00:11"]), ("lo", ["127.0.0.1"])]), "Linux", "6.1", "#1", "armv7l", "", "sheep0",
    some ["b'Filesystem", "/dev/mmcblk0", "'"], none, none⟩

example : (collectInventory exampleMachine).toOption.map (fun d => (d.field "interfaces", d.field "numpy", d.field "shepherd_sheep", ((inventoryCsv (fun _ => ['0']) [d]).map splitCells).map List.length)) =
    some (some (.table [("eth0", "00:11", "10.0.0.3")]), some (.text "1"), none, [23, 26]) := by decide +kernel

example : (∀ n, exampleMachine.modules n ≠ .unversioned) ∧ ∀ f ∈ systemFields exampleMachine [("eth0", "00:11", "10.0.0.3")], f.2.fits = true := by
  refine ⟨fun n => ?_, by decide +kernel⟩
  simp only [exampleMachine]
  split_ifs <;> simp

/-- Rows without lists keep their columns. -/
example : ((inventoryCsv (fun _ => ['0']) exampleDevices).map splitCells).map List.length = [23, 23, 23] := by decide +kernel

end Verif.Props
