import Verif.Model.Clone
import Verif.Lemmas.Text
import Mathlib.Tactic.Linarith
import Mathlib.Tactic.NormNum

/-!
# Cloning (C56, C57)
-/

namespace Yuca

/-! ## What is saved -/

theorem ltInf_some (e b : ℚ) : ltInf e (some b) = true ↔ e < b := by simp [ltInf]

theorem cloneSteps_spec (threshold : ℚ) (it : Nat) (err : Nat → ℚ) (k : Nat) :
    ∀ (s : Nat) (itBest : Option ℚ) (best : CloneBest),
      (∀ i, itBest = some i → ∃ b, best.error = some b ∧ b ≤ i) →
      let r := cloneSteps threshold it err k s itBest best
      s ≤ r.1 ∧ r.1 ≤ s + k ∧ (0 < k → s < r.1) ∧
      (r.1 < s + k → err (r.1 - 1) < threshold) ∧
      ((r.2.2 = best ∧ ∀ t, s ≤ t → t < r.1 → ∃ b, best.error = some b ∧ b ≤ err t) ∨
        ∃ t, s ≤ t ∧ t < r.1 ∧ r.2.2 = ⟨some (err t), some it⟩ ∧
          (∀ t', s ≤ t' → t' < r.1 → err t ≤ err t') ∧ ∀ b, best.error = some b → err t < b) := by
  induction k with
  | zero =>
    intro s itBest best _
    simp only [cloneSteps]
    exact ⟨le_refl _, le_refl _, by omega, by omega, Or.inl ⟨trivial, fun t h1 h2 => by omega⟩⟩
  | succ k ih =>
    intro s itBest best hinv
    have hstep : ∀ (i' : Option ℚ) (b' : CloneBest),
        (∀ i, i' = some i → ∃ b, b'.error = some b ∧ b ≤ i) →
        ((b' = best ∧ ∃ b, best.error = some b ∧ b ≤ err s) ∨
          (b' = ⟨some (err s), some it⟩ ∧ ∀ b, best.error = some b → err s < b)) →
        let r := cloneSteps threshold it err k (s + 1) i' b'
        s ≤ r.1 ∧ r.1 ≤ s + (k + 1) ∧ (0 < k + 1 → s < r.1) ∧
        (r.1 < s + (k + 1) → err (r.1 - 1) < threshold) ∧
        ((r.2.2 = best ∧ ∀ t, s ≤ t → t < r.1 → ∃ b, best.error = some b ∧ b ≤ err t) ∨
          ∃ t, s ≤ t ∧ t < r.1 ∧ r.2.2 = ⟨some (err t), some it⟩ ∧
            (∀ t', s ≤ t' → t' < r.1 → err t ≤ err t') ∧ ∀ b, best.error = some b → err t < b) := by
      intro i' b' hi hb r
      obtain ⟨h1, h2, _, h4, h5⟩ := ih (s + 1) i' b' hi
      have e1 : s + 1 + k = s + (k + 1) := by omega
      rw [e1] at h2 h4
      refine ⟨Nat.le_of_succ_le h1, h2, fun _ => h1, h4, ?_⟩
      rcases hb with ⟨rfl, b, hbe, hbs⟩ | ⟨rfl, hlt⟩
      · rcases h5 with ⟨ha, hb⟩ | ⟨t, ht1, ht2, ha, hb, hc⟩
        · left
          refine ⟨ha, fun t ht1 ht2 => ?_⟩
          rcases Nat.eq_or_lt_of_le ht1 with h | h
          · subst h; exact ⟨b, hbe, hbs⟩
          · exact hb t h ht2
        · right
          refine ⟨t, by omega, ht2, ha, fun t' h1' h2' => ?_, hc⟩
          rcases Nat.eq_or_lt_of_le h1' with h | h
          · subst h; exact le_trans (hc b hbe).le hbs
          · exact hb t' h h2'
      · right
        rcases h5 with ⟨ha, hb⟩ | ⟨t, ht1, ht2, ha, hb, hc⟩
        · refine ⟨s, le_refl _, h1, ha, fun t' h1' h2' => ?_, hlt⟩
          rcases Nat.eq_or_lt_of_le h1' with h | h
          · subst h; exact le_refl _
          · obtain ⟨b, hb1, hb2⟩ := hb t' h h2'
            simp only [Option.some.injEq] at hb1
            rw [hb1]; exact hb2
        · have hts := hc (err s) rfl
          refine ⟨t, by omega, ht2, ha, fun t' h1' h2' => ?_, fun b hb => lt_trans hts (hlt b hb)⟩
          rcases Nat.eq_or_lt_of_le h1' with h | h
          · subst h; exact hts.le
          · exact hb t' h h2'
    unfold cloneSteps
    cases hlt : ltInf (err s) itBest with
    | false =>
      rw [if_neg (by simp)]
      apply hstep itBest best hinv
      left
      refine ⟨rfl, ?_⟩
      cases itBest with
      | none => simp [ltInf] at hlt
      | some i =>
        obtain ⟨b, hb1, hb2⟩ := hinv i rfl
        refine ⟨b, hb1, le_trans hb2 ?_⟩
        simpa [ltInf] using hlt
    | true =>
      rw [if_pos rfl]
      dsimp only
      -- the new best
      have hb' : ((if ltInf (err s) best.error then (⟨some (err s), some it⟩ : CloneBest)
          else best) = best ∧ ∃ b, best.error = some b ∧ b ≤ err s) ∨
          ((if ltInf (err s) best.error then (⟨some (err s), some it⟩ : CloneBest) else best) =
            ⟨some (err s), some it⟩ ∧ ∀ b, best.error = some b → err s < b) := by
        cases hbe : best.error with
        | none => right; simp [ltInf]
        | some b =>
          by_cases h : err s < b
          · right
            rw [if_pos ((ltInf_some _ _).2 h)]
            exact ⟨rfl, fun b' hb' => by simp at hb'; rw [← hb']; exact h⟩
          · left
            rw [if_neg (fun h' => h ((ltInf_some _ _).1 h'))]
            exact ⟨rfl, b, rfl, not_lt.1 h⟩
      by_cases hth : err s < threshold
      · rw [if_pos hth]
        refine ⟨Nat.le_succ _, by dsimp only; omega, fun _ => Nat.lt_succ_self _, fun _ => hth, ?_⟩
        dsimp only
        rcases hb' with ⟨h1, h2⟩ | ⟨h1, h2⟩
        · left
          refine ⟨h1, fun t ht1 ht2 => ?_⟩
          have : t = s := by omega
          subst this; exact h2
        · right
          refine ⟨s, le_refl _, Nat.lt_succ_self _, h1, fun t' h1' h2' => ?_, h2⟩
          have : t' = s := by omega
          subst this; exact le_refl _
      · rw [if_neg hth]
        apply hstep _ _ _ hb'
        intro i hi
        simp only [Option.some.injEq] at hi
        subst hi
        rcases hb' with ⟨h1, h2⟩ | ⟨h1, h2⟩
        · rw [h1]; exact h2
        · rw [h1]; exact ⟨_, rfl, le_refl _⟩

theorem cloneIterations_spec (threshold : ℚ) (maxSteps : Nat) (err : Nat → Nat → ℚ) (k : Nat) :
    ∀ (it : Nat) (best : CloneBest),
      let r := cloneIterations threshold maxSteps err k it best
      r.1.length = k ∧ (∀ j n, r.1[j]? = some n → n ≤ maxSteps ∧ (0 < maxSteps → 0 < n) ∧
        (n < maxSteps → err (it + j) (n - 1) < threshold)) ∧
      ((r.2 = best ∧ ∀ j n t, r.1[j]? = some n → t < n →
          ∃ b, best.error = some b ∧ b ≤ err (it + j) t) ∨
        ∃ j n t, r.1[j]? = some n ∧ t < n ∧ r.2 = ⟨some (err (it + j) t), some (it + j)⟩ ∧
          (∀ j' n' t', r.1[j']? = some n' → t' < n' → err (it + j) t ≤ err (it + j') t') ∧
          ∀ b, best.error = some b → err (it + j) t < b) := by
  induction k with
  | zero =>
    intro it best
    simp only [cloneIterations]
    exact ⟨rfl, by simp, Or.inl ⟨trivial, by simp⟩⟩
  | succ k ih =>
    intro it best
    obtain ⟨h1, h2, h3, h4, h5⟩ := cloneSteps_spec threshold it (err it) maxSteps 0 none best
      (by simp)
    unfold cloneIterations
    dsimp only
    generalize hr : cloneSteps threshold it (err it) maxSteps 0 none best = r at h1 h2 h3 h4 h5
    obtain ⟨hl, hb, hm⟩ := ih (it + 1) r.2.2
    generalize hR : cloneIterations threshold maxSteps err k (it + 1) r.2.2 = R at hl hb hm
    have hsh : ∀ j, it + 1 + j = it + (j + 1) := fun j => by omega
    simp only [hsh] at hb hm
    refine ⟨by simp [hl], ?_, ?_⟩
    · intro j n hj
      cases j with
      | zero =>
        simp only [List.getElem?_cons_zero, Option.some.injEq] at hj
        subst hj
        exact ⟨by omega, h3, fun h => h4 (by omega)⟩
      | succ j =>
        rw [List.getElem?_cons_succ] at hj
        exact hb j n hj
    · rcases h5 with ⟨hE, hF⟩ | ⟨t, _, ht, hE, hF, hG⟩
      · rw [hE] at hm
        rcases hm with ⟨hA, hB⟩ | ⟨j, n, t, hj, ht, hA, hB, hC⟩
        · left
          refine ⟨hA, fun j n t hj ht => ?_⟩
          cases j with
          | zero =>
            simp only [List.getElem?_cons_zero, Option.some.injEq] at hj
            subst hj
            exact hF t (Nat.zero_le _) ht
          | succ j => rw [List.getElem?_cons_succ] at hj; exact hB j n t hj ht
        · right
          refine ⟨j + 1, n, t, by rw [List.getElem?_cons_succ]; exact hj, ht, hA, ?_, hC⟩
          intro j' n' t' hj' ht'
          cases j' with
          | zero =>
            simp only [List.getElem?_cons_zero, Option.some.injEq] at hj'
            subst hj'
            obtain ⟨b, hb1, hb2⟩ := hF t' (Nat.zero_le _) ht'
            exact le_trans (hC b hb1).le hb2
          | succ j' => rw [List.getElem?_cons_succ] at hj'; exact hB j' n' t' hj' ht'
      · right
        rw [hE] at hm
        rcases hm with ⟨hA, hB⟩ | ⟨j, n, u, hj, hu, hA, hB, hC⟩
        · refine ⟨0, r.1, t, by simp, ht, hA, ?_, hG⟩
          intro j' n' t' hj' ht'
          cases j' with
          | zero =>
            simp only [List.getElem?_cons_zero, Option.some.injEq] at hj'
            subst hj'
            exact hF t' (Nat.zero_le _) ht'
          | succ j' =>
            rw [List.getElem?_cons_succ] at hj'
            obtain ⟨b, hb1, hb2⟩ := hB j' n' t' hj' ht'
            simp only [Option.some.injEq] at hb1
            rw [Nat.add_zero, hb1]; exact hb2
        · have hlt := hC _ rfl
          refine ⟨j + 1, n, u, by rw [List.getElem?_cons_succ]; exact hj, hu, hA, ?_,
            fun b hb => lt_trans hlt (hG b hb)⟩
          intro j' n' t' hj' ht'
          cases j' with
          | zero =>
            simp only [List.getElem?_cons_zero, Option.some.injEq] at hj'
            subst hj'
            exact le_trans hlt.le (hF t' (Nat.zero_le _) ht')
          | succ j' => rw [List.getElem?_cons_succ] at hj'; exact hB j' n' t' hj' ht'

/-- The numbers of optimizer steps per iteration. -/
def Spec.stepCounts (threshold : ℚ) (maxIterations maxSteps : Nat) (err : Nat → Nat → ℚ) :
    List Nat := (cloneIterations threshold maxSteps err maxIterations 0 ⟨none, none⟩).1

/-- C56, what holds: the file holds the weights at the end of the iteration in which the smallest
error of the whole run was measured. -/
theorem clone_saves {W : Type} (threshold : ℚ) {maxIterations maxSteps : Nat}
    (err : Nat → Nat → ℚ) (weights : Nat → Nat → W) (hi : 0 < maxIterations) (hs : 0 < maxSteps) :
    ∃ it n t, (Spec.stepCounts threshold maxIterations maxSteps err)[it]? = some n ∧ t < n ∧
      cloneSaved threshold maxIterations maxSteps err weights = some (weights it n) ∧
      ∀ it' n' t', (Spec.stepCounts threshold maxIterations maxSteps err)[it']? = some n' →
        t' < n' → err it t ≤ err it' t' := by
  obtain ⟨hl, hb, hm⟩ := cloneIterations_spec threshold maxSteps err maxIterations 0 ⟨none, none⟩
  unfold cloneSaved Spec.stepCounts
  generalize cloneIterations threshold maxSteps err maxIterations 0 ⟨none, none⟩ = r at *
  simp only [Nat.zero_add] at hb hm
  rcases hm with ⟨_, hB⟩ | ⟨j, n, t, hj, ht, hA, hB, _⟩
  · exfalso
    have h0 : r.1[0]? = some (r.1[0]'(by omega)) := List.getElem?_eq_getElem _
    obtain ⟨b, hb', _⟩ := hB 0 _ 0 h0 ((hb 0 _ h0).2.1 hs)
    simp at hb'
  · refine ⟨j, n, t, hj, ht, ?_, hB⟩
    dsimp only
    rw [hA]
    simp [hj]

/-- The steps are bounded, and an iteration ends early only on an error below the threshold. -/
theorem clone_counts (threshold : ℚ) (maxIterations maxSteps : Nat) (err : Nat → Nat → ℚ) :
    (Spec.stepCounts threshold maxIterations maxSteps err).length = maxIterations ∧
      ∀ it n, (Spec.stepCounts threshold maxIterations maxSteps err)[it]? = some n →
        n ≤ maxSteps ∧ (n < maxSteps → err it (n - 1) < threshold) := by
  obtain ⟨hl, hb, _⟩ := cloneIterations_spec threshold maxSteps err maxIterations 0 ⟨none, none⟩
  simp only [Nat.zero_add] at hb
  exact ⟨hl, fun it n h => ⟨(hb it n h).1, (hb it n h).2.2⟩⟩

/-- C56, where it fails: the weights in the file are never those the smallest error was measured
with, if training changes the weights at all. -/
theorem clone_saves_refuted {W : Type} (threshold : ℚ) {maxIterations maxSteps : Nat}
    (err : Nat → Nat → ℚ) (weights : Nat → Nat → W) (hi : 0 < maxIterations) (hs : 0 < maxSteps)
    (hw : ∀ it, Function.Injective (weights it)) :
    ∃ it t n, (Spec.stepCounts threshold maxIterations maxSteps err)[it]? = some n ∧ t < n ∧
      (∀ it' n' t', (Spec.stepCounts threshold maxIterations maxSteps err)[it']? = some n' →
        t' < n' → err it t ≤ err it' t') ∧
      cloneSaved threshold maxIterations maxSteps err weights ≠ some (weights it t) := by
  obtain ⟨it, n, t, h1, h2, h3, h4⟩ := clone_saves threshold err weights hi hs
  refine ⟨it, t, n, h1, h2, h4, ?_⟩
  rw [h3]
  intro h
  have := hw it (Option.some.inj h)
  omega

/-- C56: with no iteration or no step, `None` is saved. -/
theorem clone_saves_none {W : Type} (threshold : ℚ) (maxIterations maxSteps : Nat)
    (err : Nat → Nat → ℚ) (weights : Nat → Nat → W) (h : maxIterations = 0 ∨ maxSteps = 0) :
    cloneSaved threshold maxIterations maxSteps err weights = none := by
  obtain ⟨hl, hb, hm⟩ := cloneIterations_spec threshold maxSteps err maxIterations 0 ⟨none, none⟩
  unfold cloneSaved
  generalize cloneIterations threshold maxSteps err maxIterations 0 ⟨none, none⟩ = r at *
  rcases hm with ⟨hA, _⟩ | ⟨j, n, t, hj, ht, _⟩
  · dsimp only; rw [hA]; rfl
  · exfalso
    rcases h with rfl | rfl
    · rw [List.eq_nil_of_length_eq_zero hl] at hj; simp at hj
    · have := (hb j n hj).1; omega

/-- Best error 1/10 at step 1 of 4; the weights after step 4 are saved. -/
example : cloneSaved (1 / 100) 1 4 (fun _ t => if t = 1 then 1 / 10 else 1) (fun _ n => n) =
    some 4 := by decide +kernel

/-! ## Where it is saved -/

/-- C56, where it fails: once the placeholder is gone from the path, all later configs are saved
to the same file. -/
theorem clonePaths_constant {path : Str} (h : ¬ "ca_config".toList <:+: path) (configs : List Str) :
    clonePaths path configs = configs.map fun _ => path := by
  have hc : ∀ c, clonePath path c = path := by
    intro c
    unfold clonePath
    rw [if_neg (by rw [hasSub_iff]; exact h)]
  induction configs with
  | nil => rfl
  | cons c cs ih => rw [clonePaths, hc, ih]; rfl

/-- `t` is `s` with every occurrence of `pat` replaced, reading from the left. -/
inductive Spec.Replaced (pat rep : Str) : Str → Str → Prop
  | nil : Spec.Replaced pat rep [] []
  | hit {s t : Str} : Spec.Replaced pat rep s t → Spec.Replaced pat rep (pat ++ s) (rep ++ t)
  | skip {c : Char} {s t : Str} : ¬ pat <+: c :: s → Spec.Replaced pat rep s t →
      Spec.Replaced pat rep (c :: s) (c :: t)

theorem pyReplace_replaced {pat : Str} (rep : Str) (hp : pat ≠ []) (k : Nat) (s : Str)
    (hk : s.length ≤ k) : Spec.Replaced pat rep s (pyReplace pat rep k s) := by
  induction k generalizing s with
  | zero =>
    rw [List.length_eq_zero_iff.1 (Nat.le_zero.1 hk)]
    exact .nil
  | succ k ih =>
    cases s with
    | nil => exact .nil
    | cons c s =>
      rw [pyReplace]
      by_cases h : pat.isPrefixOf (c :: s) = true
      · rw [if_pos h]
        obtain ⟨r, hr⟩ := List.isPrefixOf_iff_prefix.1 h
        rw [← hr, List.drop_left]
        refine .hit (ih r ?_)
        have h1 := List.length_pos_of_ne_nil hp
        have h2 := congrArg List.length hr
        simp only [List.length_append, List.length_cons] at h2 hk
        omega
      · rw [if_neg h]
        exact .skip (fun hc => h (List.isPrefixOf_iff_prefix.2 hc))
          (ih s (by simpa using hk))

/-- C56: the file of the first config is the given path with the name of the config in place of
every placeholder. -/
theorem clonePath_replaced (path config : Str) :
    Spec.Replaced "ca_config".toList (stem config) path (clonePath path config) := by
  have hne : "ca_config".toList ≠ [] := by decide
  unfold clonePath
  split
  · exact pyReplace_replaced _ hne _ _ le_rfl
  · rename_i h
    rw [hasSub_iff] at h
    generalize "ca_config".toList = pat at h
    induction path with
    | nil => exact .nil
    | cons c s ih =>
      refine .skip (fun hc => h hc.isInfix) (ih fun hc => h ?_)
      exact hc.trans (List.suffix_cons c s).isInfix

/-- C56, where it fails: one config later, the same. -/
theorem clonePaths_overwrite_refuted {path : Str} (c : Str) (cs : List Str)
    (h : ¬ "ca_config".toList <:+: clonePath path c) :
    clonePaths path (c :: cs) = (c :: cs).map fun _ => clonePath path c := by
  rw [clonePaths, clonePaths_constant h]
  rfl

/-- Three configs and one file. -/
example : clonePaths "/logs/ca_config.pt".toList
    ["orbium.npy".toList, "geminium.npy".toList, "frog.npy".toList] =
    ["/logs/orbium.pt".toList, "/logs/orbium.pt".toList, "/logs/orbium.pt".toList] := by decide

/-! ## Hidden width -/

/-- C57: one round never leaves the bounds. -/
theorem nextHidden_bounds {M h : Nat} (hM : h ≤ M) : h ≤ nextHidden M h ∧ nextHidden M h ≤ M := by
  unfold nextHidden
  omega

/-- C57: from a width not above the maximum the width never decreases and never exceeds the
maximum. -/
theorem hiddenAt_monotone {M h : Nat} (hM : h ≤ M) (n : Nat) :
    hiddenAt M h n ≤ hiddenAt M h (n + 1) ∧ h ≤ hiddenAt M h n ∧ hiddenAt M h n ≤ M := by
  have hb : ∀ n, h ≤ hiddenAt M h n ∧ hiddenAt M h n ≤ M := by
    intro n
    induction n with
    | zero => exact ⟨le_refl _, hM⟩
    | succ n ih =>
      have := nextHidden_bounds ih.2
      exact ⟨le_trans ih.1 this.1, this.2⟩
  exact ⟨(nextHidden_bounds (hb n).2).1, hb n⟩

/-- C57: a width above the maximum drops to the maximum in the first round, and stays. -/
theorem hiddenAt_above {M h : Nat} (hM : M < h) (n : Nat) : hiddenAt M h (n + 1) = M := by
  induction n with
  | zero => show nextHidden M h = M; unfold nextHidden; omega
  | succ n ih => rw [hiddenAt, ih]; unfold nextHidden; omega

/-- C57, where it fails: widths below 4 never grow. -/
theorem hiddenAt_stalls_refuted {M h : Nat} (h4 : h < 4) (hM : h ≤ M) (n : Nat) :
    hiddenAt M h n = h := by
  induction n with
  | zero => rfl
  | succ n ih => rw [hiddenAt, ih]; unfold nextHidden; omega

/-- C57: widths from 4 on reach the maximum after at most `M - h` rounds, and stay there. -/
theorem hiddenAt_reaches {M h : Nat} (h4 : 4 ≤ h) (hM : h ≤ M) {n : Nat} (hn : M - h ≤ n) :
    hiddenAt M h n = M := by
  have key : ∀ n, min M (h + n) ≤ hiddenAt M h n := by
    intro n
    induction n with
    | zero => show min M (h + 0) ≤ h; omega
    | succ n ih =>
      have hb := (hiddenAt_monotone hM n).2
      rw [hiddenAt]
      unfold nextHidden
      omega
  have h1 := key n
  have h2 := (hiddenAt_monotone hM n).2.2
  omega

example : (List.range 5).map (hiddenAt 64 32) = [32, 40, 50, 62, 64] := by decide

end Yuca
