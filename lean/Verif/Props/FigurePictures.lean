import Verif.Model.Figures
import Verif.Model.Stored
import Mathlib.Tactic.NormNum
import Mathlib.Tactic.Linarith
import Mathlib.Data.Rat.Init
import Verif.Props.LeniaLife
import Verif.Props.Replay

/-!
# C135: the 4×4 animation and the guessing game
-/

namespace Yuca

section Panels

variable {K : Type}

/-- `p` is the picture of `rows × cols` grids of size `h × w`, grid number `k i j` in row `i` and
column `j`. -/
def Spec.TiledBy (p : Pic K) (grids : List (Pic K)) (h w rows cols : Nat)
    (k : Nat → Nat → Nat) : Prop :=
  p.h = rows * h ∧ p.w = cols * w ∧
    ∀ i < rows, ∀ j < cols, ∀ y < h, ∀ x < w, ∃ g, grids[k i j]? = some g ∧
      p.px (i * h + y) (j * w + x) = g.px y x

theorem pick_of_lt (grids : List (Pic K)) (k : Nat) (hk : k < grids.length) :
    pick grids k = .ok grids[k] := by
  simp [pick, hk]

theorem catRow3 (grids : List (Pic K)) (h w : Nat) (hl : ∀ g ∈ grids, g.h = h ∧ g.w = w)
    (a b c : Nat) (ha : a < grids.length) (hb : b < grids.length) (hc : c < grids.length) :
    ∃ p, catRow grids [a, b, c] = .ok p ∧ Spec.TiledBy p grids h w 1 3
      (fun _ j => if j = 0 then a else if j = 1 then b else c) := by
  have ga := hl _ (List.getElem_mem ha)
  have gb := hl _ (List.getElem_mem hb)
  have gc := hl _ (List.getElem_mem hc)
  simp only [catRow, pick_of_lt _ _ ha, pick_of_lt _ _ hb, pick_of_lt _ _ hc, bind, Except.bind,
    Pic.beside, ga.1, gb.1, gc.1, if_true, ga.2, gb.2, gc.2]
  refine ⟨_, rfl, by simp, by simp; omega, ?_⟩
  intro i hi j hj y hy x hx
  obtain rfl : i = 0 := by omega
  rcases (by omega : j = 0 ∨ j = 1 ∨ j = 2) with rfl | rfl | rfl
  · refine ⟨grids[a], by simp [ha], ?_⟩
    simp [hx]
  · refine ⟨grids[b], by simp [hb], ?_⟩
    simp only [Nat.zero_mul, Nat.zero_add, Nat.one_mul]
    rw [if_neg (by omega), if_pos (by omega), Nat.add_sub_cancel_left]
  · refine ⟨grids[c], by simp [hc], ?_⟩
    simp only [Nat.zero_mul, Nat.zero_add]
    rw [if_neg (by omega), if_neg (by omega)]
    congr 1
    omega

theorem above_tiled (grids : List (Pic K)) (h w rows : Nat) (p q : Pic K)
    (k k' : Nat → Nat → Nat) (hp : Spec.TiledBy p grids h w rows 3 k)
    (hq : Spec.TiledBy q grids h w 1 3 k') :
    ∃ r, p.above q = .ok r ∧ Spec.TiledBy r grids h w (rows + 1) 3
      (fun i j => if i < rows then k i j else k' 0 j) := by
  unfold Pic.above
  rw [if_pos (by rw [hp.2.1, hq.2.1])]
  refine ⟨_, rfl, ?_, hp.2.1, ?_⟩
  · simp only [hp.1, hq.1]; ring
  · intro i hi j hj y hy x hx
    by_cases hc : i < rows
    · obtain ⟨g, hg, e⟩ := hp.2.2 i hc j hj y hy x hx
      refine ⟨g, by simp only [hc, if_true]; exact hg, ?_⟩
      have : i * h + y < rows * h := by
        calc i * h + y < i * h + h := by omega
          _ = (i + 1) * h := by ring
          _ ≤ rows * h := Nat.mul_le_mul_right _ hc
      simp only [hp.1, this, if_true]
      exact e
    · obtain rfl : i = rows := by omega
      obtain ⟨g, hg, e⟩ := hq.2.2 0 (by omega) j hj y hy x hx
      refine ⟨g, by simp only [hc, if_false]; exact hg, ?_⟩
      simp only [hp.1]
      rw [if_neg (by omega), Nat.add_sub_cancel_left]
      simpa using e

theorem tiled_congr (grids : List (Pic K)) (h w rows cols : Nat) (p : Pic K)
    (k k' : Nat → Nat → Nat) (hp : Spec.TiledBy p grids h w rows cols k)
    (hk : ∀ i < rows, ∀ j < cols, k i j = k' i j) : Spec.TiledBy p grids h w rows cols k' := by
  refine ⟨hp.1, hp.2.1, fun i hi j hj y hy x hx => ?_⟩
  obtain ⟨g, hg, e⟩ := hp.2.2 i hi j hj y hy x hx
  exact ⟨g, by rw [← hk i hi j hj]; exact hg, e⟩

/-- C135: the still picture shows the first three grids of every row of the 4×4 population. -/
theorem plot4x4_panels (grids : List (Pic K)) (h w : Nat) (hl : ∀ g ∈ grids, g.h = h ∧ g.w = w)
    (hn : grids.length = 16) :
    ∃ p, plot4x4 grids = .ok p ∧ Spec.TiledBy p grids h w 4 3 (fun i j => 4 * i + j) := by
  unfold plot4x4
  obtain ⟨p1, e1, t1⟩ := catRow3 grids h w hl 0 1 2 (by omega) (by omega) (by omega)
  obtain ⟨p2, e2, t2⟩ := catRow3 grids h w hl 4 5 6 (by omega) (by omega) (by omega)
  obtain ⟨p3, e3, t3⟩ := catRow3 grids h w hl 8 9 10 (by omega) (by omega) (by omega)
  obtain ⟨p4, e4, t4⟩ := catRow3 grids h w hl 12 13 14 (by omega) (by omega) (by omega)
  obtain ⟨q2, f2, u2⟩ := above_tiled grids h w 1 _ _ _ _ t1 t2
  obtain ⟨q3, f3, u3⟩ := above_tiled grids h w 2 _ _ _ _ u2 t3
  obtain ⟨q4, f4, u4⟩ := above_tiled grids h w 3 _ _ _ _ u3 t4
  simp only [e1, bind, Except.bind, catRows, e2, f2, e3, f3, e4, f4]
  refine ⟨_, rfl, tiled_congr _ _ _ _ _ _ _ _ u4 ?_⟩
  intro i hi j hj
  interval_cases i <;> interval_cases j <;> rfl

theorem stepAll_iter (population : List (Pic K → Pic K)) (rand : Pic K)
    (hp : population.length = 16) (n : Nat) :
    (stepAll population)^[n] (List.replicate 16 rand) = population.map fun ca => ca^[n] rand := by
  induction n with
  | zero =>
    simp only [Function.iterate_zero, id]
    rw [← hp]
    induction population with
    | nil => rfl
    | cons a l ih => simp [List.replicate_succ]
  | succ n ih =>
    rw [Function.iterate_succ_apply', ih, stepAll]
    generalize population = l
    induction l with
    | nil => rfl
    | cons a l ih2 =>
      rw [List.map_cons, List.zipWith_cons_cons, ih2, List.map_cons, Function.iterate_succ_apply']

/-- C135: frame `n` of the animation has three rows only, of the automata
0, 1, 2; 4, 5, 6; 8, 10, 11, each after `n + 1` steps from the same random grid. -/
theorem frame4x4_panels (population : List (Pic K → Pic K)) (rand : Pic K)
    (hp : population.length = 16)
    (hs : ∀ ca ∈ population, ∀ g : Pic K, (ca g).h = g.h ∧ (ca g).w = g.w) (n : Nat) :
    ∃ p, frame4x4 true population rand n = .ok p ∧
      Spec.TiledBy p (population.map fun ca => ca^[n + 1] rand) rand.h rand.w 3 3
        (fun i j => if i = 2 ∧ 0 < j then 9 + j else 4 * i + j) := by
  unfold frame4x4
  rw [stepAll_iter _ _ hp]
  set grids := population.map fun ca => ca^[n + 1] rand with hg
  have hlen : grids.length = 16 := by rw [hg, List.length_map, hp]
  have hl : ∀ g ∈ grids, g.h = rand.h ∧ g.w = rand.w := by
    intro g hgm
    obtain ⟨ca, hca, rfl⟩ := List.mem_map.1 hgm
    have : ∀ m, ((ca^[m] rand).h = rand.h ∧ (ca^[m] rand).w = rand.w) := by
      intro m
      induction m with
      | zero => exact ⟨rfl, rfl⟩
      | succ m ih =>
        rw [Function.iterate_succ_apply', (hs ca hca _).1, (hs ca hca _).2]
        exact ih
    exact this _
  obtain ⟨p1, e1, t1⟩ := catRow3 grids _ _ hl 0 1 2 (by omega) (by omega) (by omega)
  obtain ⟨p2, e2, t2⟩ := catRow3 grids _ _ hl 4 5 6 (by omega) (by omega) (by omega)
  obtain ⟨p3, e3, t3⟩ := catRow3 grids _ _ hl 8 10 11 (by omega) (by omega) (by omega)
  obtain ⟨q2, f2, u2⟩ := above_tiled grids _ _ 1 _ _ _ _ t1 t2
  obtain ⟨q3, f3, u3⟩ := above_tiled grids _ _ 2 _ _ _ _ u2 t3
  simp only [updatePic, if_true, e1, bind, Except.bind, catRows, e2, f2, e3, f3]
  refine ⟨_, rfl, tiled_congr _ _ _ _ _ _ _ _ u3 ?_⟩
  intro i hi j hj
  interval_cases i <;> interval_cases j <;> rfl

example : (List.replicate 16 (id : Pic ℚ → Pic ℚ)).length = 16 ∧
    ∀ ca ∈ List.replicate 16 (id : Pic ℚ → Pic ℚ), ∀ g : Pic ℚ,
      (ca g).h = g.h ∧ (ca g).w = g.w := by
  refine ⟨rfl, fun ca h g => ?_⟩
  rw [(List.mem_replicate.1 h).2]
  exact ⟨rfl, rfl⟩

/-- C135, refuted for the animation: so rule 9 and row d, named in its labels, are never shown:
populations that differ in them only have the same animation. -/
theorem frame4x4_hidden (population population' : List (Pic K → Pic K)) (rand : Pic K)
    (hp : population.length = 16) (hp' : population'.length = 16)
    (he : ∀ k ∈ [0, 1, 2, 4, 5, 6, 8, 10, 11], population[k]? = population'[k]?) (n : Nat) :
    frame4x4 true population rand n = frame4x4 true population' rand n := by
  unfold frame4x4
  rw [stepAll_iter _ _ hp, stepAll_iter _ _ hp']
  have hk : ∀ k ∈ [0, 1, 2, 4, 5, 6, 8, 10, 11],
      pick (population.map fun ca => ca^[n + 1] rand) k =
        pick (population'.map fun ca => ca^[n + 1] rand) k := by
    intro k hk
    unfold pick
    rw [List.getElem?_map, List.getElem?_map, he k hk]
  simp only [updatePic, if_true, catRow, catRows, hk 0 (by simp), hk 1 (by simp), hk 2 (by simp),
    hk 4 (by simp), hk 5 (by simp), hk 6 (by simp), hk 8 (by simp), hk 10 (by simp),
    hk 11 (by simp)]

/-- The still picture does show them. -/
theorem plot4x4_shows : ∃ (a b : List (Pic ℚ)), a.length = 16 ∧ b.length = 16 ∧
    (∀ k ∈ [0, 1, 2, 4, 5, 6, 8, 10, 11], a[k]? = b[k]?) ∧ plot4x4 a ≠ plot4x4 b := by
  refine ⟨List.replicate 16 ⟨1, 1, fun _ _ => 0⟩,
    (List.replicate 16 ⟨1, 1, fun _ _ => 0⟩).set 12 ⟨1, 1, fun _ _ => 1⟩, rfl, rfl, ?_, ?_⟩
  · intro k hk
    rw [List.getElem?_set_ne]
    rintro rfl
    simp at hk
  · intro h
    obtain ⟨p, hp, tp⟩ := plot4x4_panels (List.replicate 16 (⟨1, 1, fun _ _ => 0⟩ : Pic ℚ)) 1 1
      (by simp) rfl
    obtain ⟨q, hq, tq⟩ := plot4x4_panels
      ((List.replicate 16 (⟨1, 1, fun _ _ => 0⟩ : Pic ℚ)).set 12 ⟨1, 1, fun _ _ => 1⟩) 1 1
      (by
        intro g hg
        rcases List.mem_or_eq_of_mem_set hg with h | rfl
        · rw [(List.mem_replicate.1 h).2]; exact ⟨rfl, rfl⟩
        · exact ⟨rfl, rfl⟩) rfl
    rw [hp, hq] at h
    cases h
    obtain ⟨g, hg, e⟩ := tp.2.2 3 (by omega) 0 (by omega) 0 (by omega) 0 (by omega)
    obtain ⟨g', hg', e'⟩ := tq.2.2 3 (by omega) 0 (by omega) 0 (by omega) 0 (by omega)
    rw [e] at e'
    simp at hg hg'
    subst hg hg'
    simp at e'

/-- C135: the other branch of `update` always raises: its first row is narrower than the others. -/
theorem frame_not_colab (grids : List (Pic K)) (h w : Nat) (hw : 0 < w)
    (hl : ∀ g ∈ grids, g.h = h ∧ g.w = w) (hn : grids.length = 16) :
    updatePic false grids = .error .runtime := by
  obtain ⟨p1, e1, t1⟩ := catRow3 grids h w hl 0 1 2 (by omega) (by omega) (by omega)
  have g4 := hl _ (List.getElem_mem (show 4 < grids.length by omega))
  have g5 := hl _ (List.getElem_mem (show 5 < grids.length by omega))
  have g6 := hl _ (List.getElem_mem (show 6 < grids.length by omega))
  have g7 := hl _ (List.getElem_mem (show 7 < grids.length by omega))
  simp only [updatePic, e1, catRows, bind, Except.bind]
  simp only [catRow, pick_of_lt _ _ (show 4 < grids.length by omega),
    pick_of_lt _ _ (show 5 < grids.length by omega), pick_of_lt _ _ (show 6 < grids.length by omega),
    pick_of_lt _ _ (show 7 < grids.length by omega), bind, Except.bind,
    Pic.beside, g4.1, g5.1, g6.1, g7.1, if_true, g4.2, g5.2, g6.2, g7.2, Pic.above, t1.2.1]
  have hne : ¬ 3 * w = w + (w + (w + w)) := by omega
  simp only [hne, if_false]
  rw [if_neg Bool.false_ne_true]

example : ∃ grids : List (Pic ℚ), (∀ g ∈ grids, g.h = 96 ∧ g.w = 96) ∧ grids.length = 16 :=
  ⟨List.replicate 16 ⟨96, 96, fun _ _ => 0⟩, by simp, rfl⟩

end Panels

/-! ## The guessing game -/

section Guess

variable {β : Type}

/-- C135: the training pictures end `first + steps` steps after the random grid, the grid judged is
`first + 2 steps` steps after it; both carry the label `steps`. -/
theorem game_round (ca : β → β) (firstSteps caSteps : Nat) (train test : β) :
    (gameRound ca firstSteps caSteps train test).trainLast = ca^[firstSteps + caSteps] train ∧
      (gameRound ca firstSteps caSteps train test).asked = ca^[firstSteps] test ∧
      (gameRound ca firstSteps caSteps train test).judged = ca^[firstSteps + 2 * caSteps] test := by
  refine ⟨?_, rfl, ?_⟩
  · simp only [gameRound, ← Function.iterate_add_apply]
    rw [Nat.add_comm]
  · simp only [gameRound, ← Function.iterate_add_apply]
    rw [show caSteps + (caSteps + firstSteps) = firstSteps + 2 * caSteps by omega]

/-- C135: where death is final, a grid dead in the time the player trained for is dead when judged. -/
theorem game_dead (ca : β → β) (dead : β → Bool) (hd : ∀ g, dead g = true → dead (ca g) = true)
    (firstSteps caSteps : Nat) (train test : β)
    (h : dead (ca^[firstSteps + caSteps] test) = true) :
    dead (gameRound ca firstSteps caSteps train test).judged = true := by
  rw [(game_round ca firstSteps caSteps train test).2.2,
    show firstSteps + 2 * caSteps = caSteps + (firstSteps + caSteps) by omega,
    Function.iterate_add_apply]
  generalize ca^[firstSteps + caSteps] test = g at h
  generalize caSteps = n
  induction n with
  | zero => exact h
  | succ n ih =>
    rw [Function.iterate_succ_apply']
    exact hd _ ih

/-- C135, refuted for the game: a grid can be alive at the end of the training time and judged
dead. -/
theorem game_refuted : ∃ (ca : ℕ → ℕ) (dead : ℕ → Bool), (∀ g, dead g = true → dead (ca g) = true) ∧
    ∃ g, (gameRound ca 13 256 g g).trainLast ≠ 0 ∧
      dead (gameRound ca 13 256 g g).trainLast = false ∧
      dead (gameRound ca 13 256 g g).judged = true := by
  have it : ∀ n : ℕ, (fun m : ℕ => m - 1)^[n] 300 = 300 - n := by
    intro n
    induction n with
    | zero => rfl
    | succ n ih => rw [Function.iterate_succ_apply', ih]; omega
  refine ⟨fun m => m - 1, fun m => decide (m = 0), ?_, 300, ?_⟩
  · intro g h
    simp only [decide_eq_true_eq] at h ⊢
    omega
  · rw [(game_round _ 13 256 300 300).1, (game_round _ 13 256 300 300).2.2, it, it]
    decide

theorem count_le_length_zip (dead : β → Bool) (judged : List β) (guesses : List Bool) :
    correctCount dead judged guesses ≤ judged.length := by
  unfold correctCount
  calc _ ≤ (List.zipWith (fun g b => decide (dead b = g)) guesses judged).length :=
        List.count_le_length
    _ ≤ judged.length := by rw [List.length_zipWith]; omega

/-- C135: the count is the number of grids whose guess is what happened: full marks exactly for
the right guesses. -/
theorem correct_count (dead : β → Bool) (judged : List β) (guesses : List Bool)
    (hl : guesses.length = judged.length) :
    correctCount dead judged guesses =
        ((List.range judged.length).filter fun i => guesses[i]? = judged[i]?.map dead).length ∧
      (correctCount dead judged guesses = judged.length ↔ guesses = judged.map dead) := by
  induction judged generalizing guesses with
  | nil =>
    obtain rfl : guesses = [] := List.length_eq_zero_iff.1 hl
    exact ⟨rfl, by simp [correctCount]⟩
  | cons b judged ih =>
    obtain ⟨g, guesses, rfl⟩ := List.exists_cons_of_ne_nil
      (show guesses ≠ [] by rintro rfl; simp at hl)
    obtain ⟨i1, i2⟩ := ih guesses (by simpa using hl)
    have hc : correctCount dead (b :: judged) (g :: guesses) =
        correctCount dead judged guesses + if dead b = g then 1 else 0 := by
      unfold correctCount
      rw [List.zipWith_cons_cons, List.count_cons]
      by_cases h : dead b = g <;> simp [h]
    have hle := count_le_length_zip dead judged guesses
    constructor
    · rw [hc, i1, List.length_cons, List.range_succ_eq_map, List.filter_cons, List.filter_map]
      simp only [List.getElem?_cons_zero, Option.map_some, Option.some.injEq]
      by_cases h : dead b = g
      · simp [h, Function.comp_def]
      · have h' : ¬ g = dead b := fun e => h e.symm
        simp [h, h', Function.comp_def]
    · rw [hc, List.length_cons, List.map_cons, List.cons.injEq, ← i2]
      by_cases h : dead b = g
      · simp [h]
      · have h' : ¬ g = dead b := fun e => h e.symm
        simp only [h, h', if_false, false_and, iff_false]
        omega

/-- C135: the configs played are all of them, unless the player stops: then one more than the
answers "go on" before. -/
theorem played_eq (n : Nat) (answers : List Bool) (hn : 0 < n) (ha : n ≤ answers.length + 1) :
    played n answers = min n ((answers.takeWhile id).length + 1) := by
  induction n generalizing answers with
  | zero => omega
  | succ n ih =>
    cases n with
    | zero => simp [played]
    | succ n =>
      cases answers with
      | nil => simp at ha
      | cons more answers =>
        cases more with
        | false => simp [played]
        | true =>
          have := ih answers (by omega) (by simp at ha; omega)
          simp only [played, if_true, this, List.takeWhile_cons, id, List.length_cons]
          omega

example : played 4 [true, false, true] = 2 := by decide

end Guess

/-- The same lookup as elsewhere in the model, where the working directory is the root of the
repository. -/
theorem findConfig_root (fs : Files) (name : String) (h : '\n' ∉ name.toList) :
    findConfig fs (fun p => fs ("ca_configs/" ++ p)) name = readConfig fs name :=
  (readConfig_plain fs h).symm

/-- C135: started in the root of the repository, every config named in the notebook is found. -/
theorem halting_found (fs : Files)
    (hfs : ∀ s ∈ storedConfigs, fs ("ca_configs/" ++ s.file) ≠ none) :
    ∀ name ∈ haltingConfigs, readConfig fs name ≠ none := by
  have key : ∀ name ∈ haltingConfigs, ∃ s ∈ storedConfigs,
      (name = "ca_configs/" ++ s.file ∨ name = s.file) ∧ '\n' ∉ name.toList := by
    decide +kernel
  intro name hn
  obtain ⟨s, hs, h, hf⟩ := key name hn
  have := hfs s hs
  rw [readConfig_plain _ hf]
  rcases h with rfl | rfl
  · cases hc : fs ("ca_configs/" ++ s.file) with
    | none => exact absurd hc this
    | some c => exact Option.some_ne_none c
  · cases hc : fs s.file with
    | none => exact this
    | some c => exact Option.some_ne_none c

/-- C135, refuted elsewhere: started in a directory without these files, such as that of the
notebook itself, exactly one of them is not found: the fourth of the random rules, which then keeps
the parameters of the search. -/
theorem halting_missing (cwd pkg : Files) (hc : ∀ name ∈ haltingConfigs, cwd name = none)
    (hp : ∀ p, pkg p ≠ none ↔ ∃ s ∈ storedConfigs, p = s.file) :
    "ca_configs/exp_local_glaberish_geminium_random_1649461964_seed113.npy" ∈ haltingConfigs ∧
    ∀ name ∈ haltingConfigs, findConfig cwd pkg name = none ↔
      name = "ca_configs/exp_local_glaberish_geminium_random_1649461964_seed113.npy" := by
  have key : ∀ name ∈ haltingConfigs, (∃ s ∈ storedConfigs, name = s.file) ↔
      name ≠ "ca_configs/exp_local_glaberish_geminium_random_1649461964_seed113.npy" := by
    decide +kernel
  refine ⟨by decide +kernel, ?_⟩
  intro name hn
  unfold findConfig
  rw [hc name hn]
  show pkg name = none ↔ _
  have := (hp name).trans (key name hn)
  exact not_iff_not.1 this

open Classical in
example (c : Config) : ∃ cwd pkg : Files, (∀ name ∈ haltingConfigs, cwd name = none) ∧
    ∀ p, pkg p ≠ none ↔ ∃ s ∈ storedConfigs, p = s.file := by
  refine ⟨fun _ => none, fun p => if ∃ s ∈ storedConfigs, p = s.file then some c else none,
    fun _ _ => rfl, fun p => ?_⟩
  by_cases h : ∃ s ∈ storedConfigs, p = s.file <;> simp [h]

end Yuca
