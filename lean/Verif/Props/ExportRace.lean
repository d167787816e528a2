import Verif.Model.ExportRace
import Verif.Props.FloatText

/-!
# C118 Exports that run at the same time
-/

namespace Verif.Props
open Verif.Py Verif.Model

/-! ## Specification -/

/-- Nobody is killed. -/
def NoKill (schedule : List (ℕ × Option ℕ)) : Prop := ∀ e ∈ schedule, e.2 ≠ none

/-- Nobody has the file open for writing. -/
def Quiet (w : XWorld) : Prop := ∀ i pos, w.phase i ≠ .writing pos

/-- At each place the file has the character of the text, or a gap. -/
def PartOf (text file : List Char) : Prop := file.length ≤ text.length ∧ ∀ (p : ℕ) (c : Char), file[p]? = some c → text[p]? = some c ∨ c = gapChar

/-- Nothing comes between the look for the file and opening it. -/
def PromptExports (text : ℕ → List Char) (w : XWorld) (schedule : List (ℕ × Option ℕ)) : Prop :=
  ∀ a e b, schedule = a ++ e :: b → ∀ j, (w.run text a).phase j = .opening → e.1 = j

/-! ## Writing at a position -/

theorem overlay_length (old : List Char) (pos : ℕ) (piece : List Char) : (overlay old pos piece).length = max old.length (pos + piece.length) := by
  unfold overlay
  simp only [List.length_append, List.length_take, List.length_replicate, List.length_drop]
  omega

theorem overlay_get (old : List Char) (pos : ℕ) (piece : List Char) (p : ℕ) : (overlay old pos piece)[p]? =
    if p < pos then (if p < old.length then old[p]? else some gapChar) else if p < pos + piece.length then piece[p - pos]? else old[p]? := by
  have hl : ((old ++ List.replicate (pos - old.length) gapChar).take pos).length = pos := by
    simp only [List.length_append, List.length_take, List.length_replicate]; omega
  unfold overlay
  by_cases h1 : p < pos
  · rw [if_pos h1, List.append_assoc, List.getElem?_append_left (by rw [hl]; exact h1), List.getElem?_take_of_lt h1]
    by_cases h2 : p < old.length
    · rw [if_pos h2, List.getElem?_append_left h2]
    · rw [if_neg h2, List.getElem?_append_right (by omega), List.getElem?_replicate, if_pos (by omega)]
  · rw [if_neg h1]
    by_cases h2 : p < pos + piece.length
    · rw [if_pos h2, List.append_assoc, List.getElem?_append_right (by rw [hl]; omega), hl, List.getElem?_append_left (by omega)]
    · rw [if_neg h2, List.getElem?_append_right (by rw [List.length_append, hl]; omega), List.length_append, hl, List.getElem?_drop]
      congr 1; omega

theorem piece_get (t : List Char) (pos k p : ℕ) (h1 : pos ≤ p) (h2 : p < pos + ((t.drop pos).take (k + 1)).length) : ((t.drop pos).take (k + 1))[p - pos]? = t[p]? := by
  rw [List.length_take, List.length_drop] at h2
  rw [List.getElem?_take_of_lt (by omega), List.getElem?_drop]
  congr 1; omega

/-! ## The same text -/

/-- What holds whenever programs write the same text. -/
def SameInv (t : List Char) (w : XWorld) : Prop :=
  (∀ i pos, w.phase i = .writing pos → pos ≤ t.length) ∧
  match w.file with
  | none => ∀ i, w.phase i = .look ∨ w.phase i = .opening ∨ w.phase i = .killed
  | some f => PartOf t f ∧ ∃ last, w.phase last = .killed ∨ (w.phase last = .done ∧ f = t) ∨ ∃ pos, w.phase last = .writing pos ∧ pos ≤ f.length ∧ ∀ p < pos, f[p]? = t[p]?

theorem partOf_overlay {t f : List Char} {pos k : ℕ} (hf : PartOf t f) (hp : pos < t.length) : PartOf t (overlay f pos ((t.drop pos).take (k + 1))) := by
  obtain ⟨h1, h2⟩ := hf
  refine ⟨?_, ?_⟩
  · rw [overlay_length, List.length_take, List.length_drop]; omega
  · intro p c hc
    rw [overlay_get] at hc
    by_cases a : p < pos
    · rw [if_pos a] at hc
      by_cases b : p < f.length
      · rw [if_pos b] at hc; exact h2 p c hc
      · rw [if_neg b] at hc; exact .inr (Option.some.inj hc).symm
    · rw [if_neg a] at hc
      by_cases b : p < pos + ((t.drop pos).take (k + 1)).length
      · rw [if_pos b, piece_get t pos k p (by omega) b] at hc; exact .inl hc
      · rw [if_neg b] at hc; exact h2 p c hc

theorem overlay_keeps {t f : List Char} {pos k p : ℕ} (h : f[p]? = t[p]?) (hp : p < f.length) : (overlay f pos ((t.drop pos).take (k + 1)))[p]? = t[p]? := by
  rw [overlay_get]
  by_cases a : p < pos
  · rw [if_pos a, if_pos hp, h]
  · rw [if_neg a]
    by_cases b : p < pos + ((t.drop pos).take (k + 1)).length
    · rw [if_pos b, piece_get t pos k p (by omega) b]
    · rw [if_neg b, h]

theorem overlay_same {t : List Char} {pos k : ℕ} (hp : pos < t.length) : overlay t pos ((t.drop pos).take (k + 1)) = t := by
  apply List.ext_getElem?
  intro p
  rw [overlay_get]
  by_cases a : p < pos
  · rw [if_pos a, if_pos (by omega)]
  · rw [if_neg a]
    by_cases b : p < pos + ((t.drop pos).take (k + 1)).length
    · rw [if_pos b, piece_get t pos k p (by omega) b]
    · rw [if_neg b]

theorem partOf_full {t f : List Char} (h : PartOf t f) (hall : ∀ p < t.length, f[p]? = t[p]?) : f = t := by
  apply List.ext_getElem?
  intro p
  by_cases hp : p < t.length
  · exact hall p hp
  · rw [List.getElem?_eq_none (by have := h.1; omega), List.getElem?_eq_none (by omega)]

theorem sameInv_step {t : List Char} {w : XWorld} (h : SameInv t w) (i : ℕ) (e : Option ℕ) : SameInv t (w.step (fun _ => t) i e) := by
  obtain ⟨hpos, hfile⟩ := h
  -- a step that changes only the phase of i to something that is neither writing nor (newly) done
  have change : ∀ p : XPhase, (∀ pos, p ≠ .writing pos) →
      (match w.file with
        | none => p = .look ∨ p = .opening ∨ p = .killed
        | some f => (∀ pos, w.phase i = .writing pos → p = .killed ∨ (p = .done ∧ t.length ≤ pos)) ∧ (w.phase i = .killed → p = .killed) ∧ (w.phase i = .done → p = .done)) →
      SameInv t { w with phase := fun j => if j = i then p else w.phase j } := by
    intro p hp hc
    refine ⟨fun j pos hj => ?_, ?_⟩
    · dsimp only at hj
      split_ifs at hj with hji
      · exact absurd hj (hp pos)
      · exact hpos j pos hj
    · cases hw : w.file with
      | none =>
        simp only [hw] at hfile hc ⊢
        intro j
        by_cases hji : j = i
        · rw [if_pos hji]; exact hc
        · rw [if_neg hji]; exact hfile j
      | some f =>
        simp only [hw] at hfile hc ⊢
        obtain ⟨hpart, last, hl⟩ := hfile
        obtain ⟨c1, c2, c3⟩ := hc
        refine ⟨hpart, last, ?_⟩
        by_cases hli : last = i
        · subst hli
          rw [if_pos rfl]
          rcases hl with hl | ⟨hl, hft⟩ | ⟨pos, hl, hle, hall⟩
          · exact .inl (c2 hl)
          · exact .inr (.inl ⟨c3 hl, hft⟩)
          · rcases c1 pos hl with hk | ⟨hd, hlen⟩
            · exact .inl hk
            · exact .inr (.inl ⟨hd, partOf_full hpart (fun p hp => hall p (by omega))⟩)
        · rw [if_neg hli]; exact hl
  unfold XWorld.step
  dsimp only
  cases hph : w.phase i with
  | done => exact ⟨hpos, hfile⟩
  | skipped => exact ⟨hpos, hfile⟩
  | killed => exact ⟨hpos, hfile⟩
  | look =>
    cases e with
    | none =>
      refine change .killed (by simp) ?_
      cases hw : w.file with
      | none => simp
      | some f => simp [hph]
    | some k =>
      cases hw : w.file with
      | none =>
        have := change .opening (by simp) (by rw [hw]; simp)
        rw [hw] at this
        exact this
      | some f =>
        have := change .skipped (by simp) (by rw [hw]; simp [hph])
        rw [hw] at this
        exact this
  | opening =>
    cases e with
    | none =>
      refine change .killed (by simp) ?_
      cases hw : w.file with
      | none => simp
      | some f => simp [hph]
    | some k =>
      refine ⟨fun j pos hj => ?_, ?_⟩
      · dsimp only at hj
        split_ifs at hj with hji
        · injection hj with hj; omega
        · exact hpos j pos hj
      · refine ⟨⟨by simp, by simp⟩, i, .inr (.inr ⟨0, by simp, by simp, by simp⟩)⟩
  | writing pos =>
    have hle := hpos i pos hph
    cases e with
    | none =>
      refine change .killed (by simp) ?_
      cases hw : w.file with
      | none => simp
      | some f => simp [hph]
    | some k =>
      by_cases hend : t.length ≤ pos
      · dsimp only
        rw [if_pos hend]
        refine change .done (by simp) ?_
        cases hw : w.file with
        | none =>
          rw [hw] at hfile
          rcases hfile i with h | h | h <;> rw [hph] at h <;> cases h
        | some f =>
          dsimp only
          refine ⟨fun pos' hp' => .inr ⟨rfl, ?_⟩, by simp [hph], by simp⟩
          rw [hph] at hp'; injection hp' with hp'; omega
      · dsimp only
        rw [if_neg hend]
        cases hw : w.file with
        | none =>
          rw [hw] at hfile
          rcases hfile i with h | h | h <;> rw [hph] at h <;> cases h
        | some f =>
          rw [hw] at hfile
          obtain ⟨hpart, last, hl⟩ := hfile
          have hpl : pos + ((t.drop pos).take (k + 1)).length ≤ t.length := by
            rw [List.length_take, List.length_drop]; omega
          refine ⟨fun j pos' hj => ?_, ?_⟩
          · dsimp only at hj
            split_ifs at hj with hji
            · injection hj with hj; omega
            · exact hpos j pos' hj
          · dsimp only [Option.getD_some]
            refine ⟨partOf_overlay hpart (by omega), last, ?_⟩
            by_cases hli : last = i
            · subst hli
              rw [if_pos rfl]
              rcases hl with hl | ⟨hl, -⟩ | ⟨pos', hl, hle', hall⟩
              · rw [hph] at hl; cases hl
              · rw [hph] at hl; cases hl
              · rw [hph] at hl; injection hl with hl; subst hl
                refine .inr (.inr ⟨_, rfl, by rw [overlay_length]; omega, ?_⟩)
                intro p hp
                by_cases hpp : p < pos
                · exact overlay_keeps (hall p hpp) (by omega)
                · rw [overlay_get, if_neg hpp, if_pos hp, piece_get t pos k p (by omega) hp]
            · rw [if_neg hli]
              rcases hl with hl | ⟨hl, hft⟩ | ⟨pos', hl, hle', hall⟩
              · exact .inl hl
              · refine .inr (.inl ⟨hl, ?_⟩)
                rw [hft]; exact overlay_same (by omega)
              · refine .inr (.inr ⟨pos', hl, by rw [overlay_length]; omega, ?_⟩)
                intro p hp
                exact overlay_keeps (hall p hp) (by omega)

theorem xrun_append (text : ℕ → List Char) (w : XWorld) (l : List (ℕ × Option ℕ)) (e : ℕ × Option ℕ) : w.run text (l ++ [e]) = (w.run text l).step text e.1 e.2 := by
  simp [XWorld.run, List.foldl_append]

theorem sameInv_run (t : List Char) (l : List (ℕ × Option ℕ)) : SameInv t (XWorld.fresh.run (fun _ => t) l) := by
  induction l using List.reverseRecOn with
  | nil => exact ⟨fun i pos h => (by cases h), fun i => .inl rfl⟩
  | append_singleton l e ih => rw [xrun_append]; exact sameInv_step ih _ _

theorem noKill_run (text : ℕ → List Char) (w : XWorld) (hw : ∀ i, w.phase i ≠ .killed) (l : List (ℕ × Option ℕ)) (hl : NoKill l) (i : ℕ) : (w.run text l).phase i ≠ .killed := by
  induction l using List.reverseRecOn with
  | nil => exact hw i
  | append_singleton l e ih =>
    have ih := ih (fun x hx => hl x (List.mem_append_left _ hx))
    obtain ⟨k, hk⟩ : ∃ k, e.2 = some k := Option.ne_none_iff_exists'.1 (hl e (by simp))
    rw [xrun_append, hk]
    generalize w.run text l = v at ih
    unfold XWorld.step
    dsimp only
    cases hp : v.phase e.1 <;> dsimp only
    · split_ifs <;> simp [ih]
    · split_ifs <;> simp [ih]
    · split_ifs <;> dsimp only <;> split_ifs <;> simp [ih]
    · exact ih
    · exact ih
    · exact ih

/-- **C118, the same text.**  However many programs export the same recording with the same options, and whatever the order of their steps: when nobody is writing any more and any of them is done or has skipped
the file, it has the whole text. -/
theorem C118_same (t : List Char) (l : List (ℕ × Option ℕ)) (hl : NoKill l) (hq : Quiet (XWorld.fresh.run (fun _ => t) l))
    (hd : ∃ i, (XWorld.fresh.run (fun _ => t) l).phase i = .done ∨ (XWorld.fresh.run (fun _ => t) l).phase i = .skipped) :
    (XWorld.fresh.run (fun _ => t) l).file = some t := by
  obtain ⟨-, hf⟩ := sameInv_run t l
  have hk := noKill_run (fun _ => t) XWorld.fresh (fun i => by simp [XWorld.fresh]) l hl
  generalize XWorld.fresh.run (fun _ => t) l = w at *
  cases hw : w.file with
  | none =>
    rw [hw] at hf
    obtain ⟨i, hi⟩ := hd
    rcases hf i with h | h | h <;> rw [h] at hi <;> rcases hi with hi | hi <;> cases hi
  | some f =>
    rw [hw] at hf
    obtain ⟨-, last, h | ⟨-, h⟩ | ⟨pos, h, -⟩⟩ := hf
    · exact absurd h (hk last)
    · rw [h]
    · exact absurd h (hq last pos)

/-- **C118, at any time**, also if programs are killed, the file has nothing but characters of the text at their places, and gaps. -/
theorem C118_parts (t : List Char) (l : List (ℕ × Option ℕ)) (f : List Char) (hf : (XWorld.fresh.run (fun _ => t) l).file = some f) : PartOf t f := by
  obtain ⟨-, h⟩ := sameInv_run t l
  rw [hf] at h
  exact h.1

/-! ## Files that exist -/

/-- **C118, a file that existed before** is never changed, whatever programs do. -/
theorem C118_earlier (text : ℕ → List Char) (f : List Char) (l : List (ℕ × Option ℕ)) :
    (XWorld.run text ⟨some f, fun _ => .look⟩ l).file = some f := by
  suffices h : (XWorld.run text ⟨some f, fun _ => .look⟩ l).file = some f ∧ ∀ i, (XWorld.run text ⟨some f, fun _ => .look⟩ l).phase i = .look ∨
      (XWorld.run text ⟨some f, fun _ => .look⟩ l).phase i = .skipped ∨ (XWorld.run text ⟨some f, fun _ => .look⟩ l).phase i = .killed from h.1
  induction l using List.reverseRecOn with
  | nil => exact ⟨rfl, fun i => .inl rfl⟩
  | append_singleton l e ih =>
    rw [xrun_append]
    generalize XWorld.run text ⟨some f, fun _ => .look⟩ l = v at ih
    obtain ⟨h1, h2⟩ := ih
    unfold XWorld.step
    dsimp only
    rcases h2 e.1 with h | h | h
    · rw [h]
      cases e.2 with
      | none =>
        refine ⟨h1, fun i => ?_⟩
        dsimp only
        split_ifs
        · exact .inr (.inr rfl)
        · exact h2 i
      | some k =>
        refine ⟨h1, fun i => ?_⟩
        dsimp only
        rw [h1]
        split_ifs with a b
        · exact .inr (.inl rfl)
        · exact absurd rfl b
        · exact h2 i
    · rw [h]; exact ⟨h1, h2⟩
    · rw [h]; exact ⟨h1, h2⟩

/-! ## Different texts -/

/-- What holds if nothing comes between the look and opening. -/
def PromptInv (text : ℕ → List Char) (w : XWorld) : Prop :=
  match w.file with
  | none => ∀ i, w.phase i = .look ∨ w.phase i = .opening ∨ w.phase i = .killed
  | some f => ∃ i, (∀ j, j ≠ i → w.phase j = .look ∨ w.phase j = .skipped ∨ w.phase j = .killed) ∧ f <+: text i ∧
      (w.phase i = .writing f.length ∨ (w.phase i = .done ∧ f = text i) ∨ w.phase i = .killed)

theorem overlay_end (f piece : List Char) : overlay f f.length piece = f ++ piece := by
  unfold overlay
  simp

theorem promptInv_step {text : ℕ → List Char} {w : XWorld} (h : PromptInv text w) (i : ℕ) (e : Option ℕ) (hp : ∀ j, w.phase j = .opening → i = j) : PromptInv text (w.step text i e) := by
  unfold PromptInv at h
  cases hw : w.file with
  | none =>
    rw [hw] at h
    dsimp only at h
    unfold XWorld.step
    dsimp only
    rcases h i with hi | hi | hi
    · rw [hi]
      cases e with
      | none =>
        unfold PromptInv; dsimp only; rw [hw]; dsimp only
        intro j
        split_ifs
        · exact .inr (.inr rfl)
        · exact h j
      | some k =>
        unfold PromptInv; dsimp only; rw [hw]; dsimp only
        intro j
        by_cases hj : j = i
        · rw [if_pos hj]; exact .inr (.inl rfl)
        · rw [if_neg hj]; exact h j
    · rw [hi]
      cases e with
      | none =>
        unfold PromptInv; dsimp only; rw [hw]; dsimp only
        intro j
        split_ifs
        · exact .inr (.inr rfl)
        · exact h j
      | some k =>
        unfold PromptInv; dsimp only
        refine ⟨i, fun j hj => ?_, List.nil_prefix, ?_⟩
        · rw [if_neg hj]
          rcases h j with h' | h' | h'
          · exact .inl h'
          · exact absurd (hp j h').symm hj
          · exact .inr (.inr h')
        · rw [if_pos rfl]; exact .inl rfl
    · rw [hi]
      unfold PromptInv; dsimp only; rw [hw]; exact h
  | some f =>
    rw [hw] at h
    obtain ⟨o, h1, h2, h3⟩ := h
    have same : PromptInv text w := by
      unfold PromptInv; rw [hw]; exact ⟨o, h1, h2, h3⟩
    have killed : PromptInv text { w with phase := fun j => if j = i then .killed else w.phase j } := by
      unfold PromptInv; dsimp only; rw [hw]
      refine ⟨o, fun j hj => ?_, h2, ?_⟩
      · split_ifs
        · exact .inr (.inr rfl)
        · exact h1 j hj
      · split_ifs
        · exact .inr (.inr rfl)
        · exact h3
    unfold XWorld.step
    dsimp only
    by_cases hio : i = o
    · subst hio
      rcases h3 with h3 | ⟨h3, h4⟩ | h3
      · rw [h3]
        cases e with
        | none => exact killed
        | some k =>
          dsimp only
          by_cases hend : (text i).length ≤ f.length
          · rw [if_pos hend]
            unfold PromptInv; dsimp only; rw [hw]
            refine ⟨i, fun j hj => ?_, h2, .inr (.inl ⟨by simp, h2.eq_of_length_le hend⟩)⟩
            rw [if_neg hj]; exact h1 j hj
          · rw [if_neg hend]
            unfold PromptInv; dsimp only; rw [hw]
            dsimp only [Option.getD_some]
            rw [overlay_end]
            obtain ⟨r, hr⟩ := h2
            have hdrop : (text i).drop f.length = r := by rw [← hr]; simp
            refine ⟨i, fun j hj => ?_, ?_, .inl ?_⟩
            · rw [if_neg hj]; exact h1 j hj
            · rw [hdrop, ← hr]
              exact (List.prefix_append_right_inj f).2 (List.take_prefix _ _)
            · rw [if_pos rfl, List.length_append]
      · rw [h3]; exact same
      · rw [h3]; exact same
    · rcases h1 i hio with hi | hi | hi
      · rw [hi]
        cases e with
        | none => exact killed
        | some k =>
          unfold PromptInv; dsimp only; rw [hw]
          refine ⟨o, fun j hj => ?_, h2, ?_⟩
          · split_ifs with a b
            · exact .inr (.inl rfl)
            · exact absurd rfl b
            · exact h1 j hj
          · rw [if_neg (Ne.symm hio)]; exact h3
      · rw [hi]; exact same
      · rw [hi]; exact same

theorem promptInv_run (text : ℕ → List Char) (l : List (ℕ × Option ℕ)) (hp : PromptExports text XWorld.fresh l) : PromptInv text (XWorld.fresh.run text l) := by
  induction l using List.reverseRecOn with
  | nil => exact fun i => .inl rfl
  | append_singleton l e ih =>
    have ih := ih (fun a e' b hab j hj => hp a e' (b ++ [e]) (by rw [hab]; simp) j hj)
    rw [xrun_append]
    exact promptInv_step ih _ _ (fun j hj => hp l e [] rfl j hj)

/-- **C118, different texts.**  If nothing comes between the look for the file and opening it, then at most one program ever writes, whatever the texts: the file always is the beginning of the text of that one,
and the whole text as soon as it is done; all others skip the file. -/
theorem C118_prompt (text : ℕ → List Char) (l : List (ℕ × Option ℕ)) (hp : PromptExports text XWorld.fresh l) :
    (∀ f, (XWorld.fresh.run text l).file = some f → ∃ i, f <+: text i ∧ ∀ j ≠ i, (XWorld.fresh.run text l).phase j ≠ .done ∧ ∀ pos, (XWorld.fresh.run text l).phase j ≠ .writing pos) ∧
    ∀ i, (XWorld.fresh.run text l).phase i = .done → (XWorld.fresh.run text l).file = some (text i) := by
  have h := promptInv_run text l hp
  generalize XWorld.fresh.run text l = w at *
  unfold PromptInv at h
  cases hw : w.file with
  | none =>
    rw [hw] at h
    refine ⟨by simp, fun i hi => ?_⟩
    rcases h i with h | h | h <;> rw [hi] at h <;> cases h
  | some f =>
    rw [hw] at h
    obtain ⟨o, h1, h2, h3⟩ := h
    have others : ∀ j ≠ o, w.phase j ≠ .done ∧ ∀ pos, w.phase j ≠ .writing pos := by
      intro j hj
      rcases h1 j hj with h | h | h <;> rw [h] <;> simp
    refine ⟨fun g hg => ?_, fun i hi => ?_⟩
    · injection hg with hg; subst hg
      exact ⟨o, h2, others⟩
    · by_cases hio : i = o
      · subst hio
        rcases h3 with h3 | ⟨h3, h4⟩ | h3
        · rw [hi] at h3; cases h3
        · rw [h4]
        · rw [hi] at h3; cases h3
      · exact absurd hi (others i hio).1

/-! ## Every program ends -/

/-- Steps a program may still need. -/
def stepsLeft (text : ℕ → List Char) (w : XWorld) (i : ℕ) : ℕ :=
  match w.phase i with
  | .look => (text i).length + 3
  | .opening => (text i).length + 2
  | .writing pos => (text i).length - pos + 1
  | _ => 0

theorem stepsLeft_step (text : ℕ → List Char) (w : XWorld) (i j : ℕ) (e : Option ℕ) : stepsLeft text (w.step text j e) i ≤ stepsLeft text w i - (if j = i then 1 else 0) := by
  by_cases hji : j = i
  · subst hji
    rw [if_pos rfl]
    unfold XWorld.step
    dsimp only
    cases hp : w.phase j with
    | done => cases e <;> simp [stepsLeft, hp]
    | skipped => cases e <;> simp [stepsLeft, hp]
    | killed => cases e <;> simp [stepsLeft, hp]
    | look =>
      cases e with
      | none => simp [stepsLeft, hp]
      | some k => by_cases hf : w.file.isSome = true <;> simp [stepsLeft, hp, hf]
    | opening => cases e <;> simp [stepsLeft, hp]
    | writing pos =>
      cases e with
      | none => simp [stepsLeft, hp]
      | some k =>
        dsimp only
        by_cases h : (text j).length ≤ pos
        · rw [if_pos h]; simp [stepsLeft]
        · rw [if_neg h]
          simp only [stepsLeft, hp, if_true, List.length_take, List.length_drop]
          omega
  · rw [if_neg hji]
    have : (w.step text j e).phase i = w.phase i := by
      unfold XWorld.step
      dsimp only
      cases hp : w.phase j with
      | writing pos =>
        cases e with
        | none => exact if_neg (Ne.symm hji)
        | some k =>
          dsimp only
          by_cases h : (text j).length ≤ pos
          · rw [if_pos h]; exact if_neg (Ne.symm hji)
          · rw [if_neg h]; exact if_neg (Ne.symm hji)
      | _ => cases e <;> first | rfl | exact if_neg (Ne.symm hji)
    unfold stepsLeft
    rw [this]
    simp

/-- **C118, the end.**  Every program ends: after three steps of its own and one for each character it is done, has skipped the file or was killed, whatever the others do. -/
theorem C118_ends (text : ℕ → List Char) (l : List (ℕ × Option ℕ)) (i : ℕ) (hl : (text i).length + 3 ≤ l.countP fun e => e.1 = i) :
    (XWorld.fresh.run text l).phase i = .done ∨ (XWorld.fresh.run text l).phase i = .skipped ∨ (XWorld.fresh.run text l).phase i = .killed := by
  have key : ∀ l : List (ℕ × Option ℕ), stepsLeft text (XWorld.fresh.run text l) i ≤ (text i).length + 3 - l.countP fun e => e.1 = i := by
    intro l
    induction l using List.reverseRecOn with
    | nil => simp [stepsLeft, XWorld.run, XWorld.fresh]
    | append_singleton l e ih =>
      rw [xrun_append]
      refine (stepsLeft_step text _ i e.1 e.2).trans ?_
      rw [List.countP_append, List.countP_singleton]
      by_cases h : e.1 = i
      · simp only [h, if_true, decide_true]; omega
      · simp only [h, if_false, decide_false]; simpa using ih
  have h0 := key l
  have h1 : stepsLeft text (XWorld.fresh.run text l) i = 0 := by omega
  unfold stepsLeft at h1
  cases hp : (XWorld.fresh.run text l).phase i <;> rw [hp] at h1 <;> simp at h1 ⊢

/-! ## Violations -/

/-- **C118, violated: different options.**  Two programs that export to the same path, and the shorter text is not the beginning of the longer one: there is an order of steps after which both are
done and the file is neither text. -/
theorem C118_mixed_violated (t u : List Char) (hlt : t.length < u.length) (h1 : ¬ t <+: u) (hne : t ≠ []) : ∃ l, NoKill l ∧
    (XWorld.fresh.run (fun i => if i = 0 then t else u) l).phase 0 = .done ∧ (XWorld.fresh.run (fun i => if i = 0 then t else u) l).phase 1 = .done ∧
    ∃ f, (XWorld.fresh.run (fun i => if i = 0 then t else u) l).file = some f ∧ f = t ++ u.drop t.length ∧ f ≠ t ∧ f ≠ u := by
  have hu : u ≠ [] := by rintro rfl; simp at hlt
  have tp : 0 < t.length := List.length_pos_iff.2 hne
  have up : 0 < u.length := List.length_pos_iff.2 hu
  refine ⟨[(0, some 0), (1, some 0), (0, some 0), (1, some 0), (1, some u.length), (1, some 0), (0, some t.length), (0, some 0)], by simp [NoKill], ?_⟩
  have e1 : List.take (u.length + 1) u = u := List.take_of_length_le (by omega)
  have e2 : List.take (t.length + 1) t = t := List.take_of_length_le (by omega)
  have o1 : overlay [] 0 u = u := by simp [overlay]
  have o2 : overlay u 0 t = t ++ u.drop t.length := by simp [overlay]
  have key : ∀ w : XWorld, w = XWorld.fresh.run (fun i => if i = 0 then t else u) [(0, some 0), (1, some 0), (0, some 0), (1, some 0), (1, some u.length), (1, some 0), (0, some t.length), (0, some 0)] →
      w.phase 0 = .done ∧ w.phase 1 = .done ∧ w.file = some (t ++ u.drop t.length) := by
    intro w hw
    simp [XWorld.run, XWorld.step, XWorld.fresh, e1, e2, o1, o2, hne, hu] at hw
    subst hw
    simp
  obtain ⟨k1, k2, k3⟩ := key _ rfl
  refine ⟨k1, k2, _, k3, rfl, ?_, fun he => h1 ⟨_, he⟩⟩
  intro he
  have := congrArg List.length he
  rw [List.length_append, List.length_drop] at this
  omega

/-- **C118, violated: a program that is killed.**  Two programs export the same text, one is killed, the other goes on and is done: there is an order of steps after which the file begins with a gap instead
of the text.  Later programs skip it (`C118_earlier`). -/
theorem C118_killed_violated (c : Char) (t : List Char) (hc : c ≠ gapChar) (hne : t ≠ []) : ∃ l, (XWorld.fresh.run (fun _ => c :: t) l).phase 0 = .done ∧ (XWorld.fresh.run (fun _ => c :: t) l).phase 1 = .killed ∧
    ∃ f, (XWorld.fresh.run (fun _ => c :: t) l).file = some f ∧ f = gapChar :: t ∧ f ≠ c :: t := by
  refine ⟨[(0, some 0), (1, some 0), (0, some 0), (0, some 0), (1, some 0), (1, none), (0, some t.length), (0, some 0)], ?_⟩
  have e1 : List.take (t.length + 1) t = t := List.take_of_length_le (by omega)
  have o1 : overlay [] 0 [c] = [c] := by simp [overlay]
  have o2 : overlay [] 1 t = gapChar :: t := by simp [overlay]
  have tp : 0 < t.length := List.length_pos_iff.2 hne
  have key : ∀ w : XWorld, w = XWorld.fresh.run (fun _ => c :: t) [(0, some 0), (1, some 0), (0, some 0), (0, some 0), (1, some 0), (1, none), (0, some t.length), (0, some 0)] →
      w.phase 0 = .done ∧ w.phase 1 = .killed ∧ w.file = some (gapChar :: t) := by
    intro w hw
    simp [XWorld.run, XWorld.step, XWorld.fresh, e1, o1, o2, hne] at hw
    subst hw
    simp
  obtain ⟨k1, k2, k3⟩ := key _ rfl
  refine ⟨k1, k2, _, k3, rfl, ?_⟩
  intro he
  exact hc (List.cons.inj he).1.symm

/-! ## Tables -/

/-- **C118, tables.**  However many programs export the same recording at the same time: when nobody is writing any more and one of them is done, whoever reads the table gets the values of all samples. -/
theorem C118_table (separator : Char) (hsep : separator = ';' ∨ separator = ',') (z : Zone) (gt gc oc gv ov : ℚ) (samples : List (ℤ × ℚ × ℚ)) (hne : samples ≠ []) :
    ∃ file, saveCsv b64 false none (some (recordedGroup gt gc oc gv ov samples)) = (some file, .ok samples.length) ∧
      ∀ l, NoKill l → Quiet (XWorld.fresh.run (fun _ => csvText [separator] floatText z file) l) → (∃ i, (XWorld.fresh.run (fun _ => csvText [separator] floatText z file) l).phase i = .done) →
        ∃ f, (XWorld.fresh.run (fun _ => csvText [separator] floatText z file) l).file = some f ∧
          tableNumbers separator f = samples.map fun s => [b64 (b64 (b64 s.2.1 * gc) + oc), b64 (b64 (b64 s.2.2 * gv) + ov)] := by
  obtain ⟨file, h1, h2⟩ := C117_table separator hsep z gt gc oc gv ov samples hne
  refine ⟨file, h1, fun l hk hq ⟨i, hi⟩ => ⟨_, C118_same _ l hk hq ⟨i, .inl hi⟩, h2⟩⟩

/-! ## Examples -/

/-- Three programs, the third one comes later and skips the file; the second one opens it when the first one has written a part. -/
def threeExports : List (ℕ × Option ℕ) :=
  [(0, some 0), (1, some 0), (0, some 0), (0, some 1), (1, some 0), (0, some 1), (2, some 0), (1, some 0), (0, some 5), (1, some 9), (1, some 0), (0, some 0)]

example : NoKill threeExports ∧ (XWorld.fresh.run (fun _ => "a;b;c\n".toList) threeExports).file = some "a;b;c\n".toList ∧
    ((List.range 3).map (XWorld.fresh.run (fun _ => "a;b;c\n".toList) threeExports).phase = [.done, .done, .skipped]) := by
  refine ⟨by unfold NoKill threeExports; decide, by decide +kernel, by decide +kernel⟩

/-- In between there are gaps. -/
example : (XWorld.fresh.run (fun _ => "a;b;c\n".toList) (threeExports.take 6)).file = some [gapChar, gapChar, 'b', ';'] := by decide +kernel

example : PromptExports (fun i => if i = 0 then "ab".toList else "xyz".toList) XWorld.fresh [(0, some 0), (0, some 0), (1, some 0), (0, some 7), (0, some 0)] := by
  intro a e b h j hj
  rcases a with _ | ⟨a0, _ | ⟨a1, _ | ⟨a2, _ | ⟨a3, _ | ⟨a4, a⟩⟩⟩⟩⟩ <;> simp only [List.nil_append, List.cons_append, List.cons.injEq, List.nil_eq, reduceCtorEq, and_false, List.append_eq_nil_iff] at h
  · obtain ⟨rfl, -⟩ := h; simp [XWorld.run, XWorld.fresh] at hj
  · obtain ⟨rfl, rfl, -⟩ := h; simp [XWorld.run, XWorld.step, XWorld.fresh] at hj; exact hj.symm
  · obtain ⟨rfl, rfl, rfl, -⟩ := h; simp [XWorld.run, XWorld.step, XWorld.fresh] at hj; split_ifs at hj
  · obtain ⟨rfl, rfl, rfl, rfl, -⟩ := h; simp [XWorld.run, XWorld.step, XWorld.fresh] at hj; split_ifs at hj
  · obtain ⟨rfl, rfl, rfl, rfl, rfl, -⟩ := h; simp [XWorld.run, XWorld.step, XWorld.fresh] at hj; split_ifs at hj

end Verif.Props
