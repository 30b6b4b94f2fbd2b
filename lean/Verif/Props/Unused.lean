import Verif.Model.Unused
import Verif.Model.Notebook
import Verif.Spec.Dyn

/-!
# Activations that no automaton uses (C139)
-/

namespace Yuca

open Arith Spec

variable {α : Type} {N ext int H W : Nat}

/-- C139: `get_smooth_steps_fn` makes `SmoothIntervals` in mode 0, and the function the notebooks
make. -/
theorem stepsFn_eq (intervals : List (ℝ × ℝ)) (alpha x : ℝ) :
    stepsFn intervals alpha x = Act.eval (.smoothIntervals intervals alpha false) x ∧
      stepsFn intervals alpha x = nbSteps intervals alpha x := by
  refine ⟨?_, rfl⟩
  have key : ∀ (l : List (ℝ × ℝ)) (c : ℝ), l.foldl (fun result bounds =>
      result + stepSigmoid x bounds.1 alpha * (1 - stepSigmoid x bounds.2 alpha)) c =
      c + (l.map fun b => sigmoid1 b.1 alpha x * (1 - sigmoid1 b.2 alpha x)).sum := by
    intro l
    induction l with
    | nil => simp
    | cons b l ih =>
      intro c
      simp only [List.foldl_cons, ih, List.map_cons, List.sum_cons]
      unfold stepSigmoid sigmoid1
      ring
  simp only [stepsFn, key, Act.eval, smoothIntervalsFn, zero_add, Bool.false_eq_true, if_false]

/-- C139: which universes it takes, and what is raised otherwise. -/
theorem metaMixture_takes (mode : Bool) (x : Univ ℝ N ext H W) :
    (3 ≤ ext → ∃ y, metaMixture mode x = .ok y) ∧
      (ext < 3 → metaMixture mode x = .error .index) := by
  unfold metaMixture
  constructor <;> intro h
  · rw [dif_pos (by omega)]; exact ⟨_, rfl⟩
  · rw [dif_neg (by omega)]

/-- C139: each cell of the result is the gaussian of the cell in channel 0, centred at the cell in
channel 1 and as wide as the cell in channel 2, which `eps` of `Gaussian` and its own `eps` make
wider. -/
theorem metaMixture_cell {mode : Bool} {x : Univ ℝ N ext H W} {y : Univ ℝ N 1 H W}
    (h : metaMixture mode x = .ok y) (n : Fin N) (i : Fin H) (j : Fin W) (a b c : Fin ext)
    (ha : a.val = 0) (hb : b.val = 1) (hc : c.val = 2) :
    y n 0 i j = Act.eval (.gaussian (x n b i j) (x n c i j + (1e-7 - 1e-9)) mode) (x n a i j) := by
  unfold metaMixture at h
  split at h
  · cases h
    have h3 : 2 < ext := by assumption
    have ea : a = ⟨0, by omega⟩ := Fin.ext ha
    have eb : b = ⟨1, by omega⟩ := Fin.ext hb
    have ec : c = ⟨2, h3⟩ := Fin.ext hc
    rw [ea, eb, ec]
    simp only [Act.eval, gaussianFn, bump, eps7, eps9]
    ring_nf
  · cases h

/-- C139: the values of the result, for cells of channel 2 that are not negative. -/
theorem metaMixture_values {mode : Bool} {x : Univ ℝ N ext H W} {y : Univ ℝ N 1 H W}
    (h : metaMixture mode x = .ok y) (n : Fin N) (i : Fin H) (j : Fin W) (a b c : Fin ext)
    (ha : a.val = 0) (hb : b.val = 1) (hc : c.val = 2) (hw : 0 ≤ x n c i j) :
    (if mode then -1 else 0) < y n 0 i j ∧ y n 0 i j ≤ 1 ∧
      (y n 0 i j = 1 ↔ x n a i j = x n b i j) := by
  rw [metaMixture_cell h n i j a b c ha hb hc]
  simp only [Act.eval, gaussianFn, bump, eps9]
  have hs : (0 : ℝ) < 1e-9 + (x n c i j + (1e-7 - 1e-9)) := by linarith [show (0:ℝ) < 1e-7 by norm_num]
  set q := (x n a i j - x n b i j) / (1e-9 + (x n c i j + (1e-7 - 1e-9))) with hq
  have h0 := Real.exp_pos (-q ^ 2 / 2)
  have h1 : Real.exp (-q ^ 2 / 2) ≤ 1 := Real.exp_le_one_iff.2 (by nlinarith [sq_nonneg q])
  have h2 : Real.exp (-q ^ 2 / 2) = 1 ↔ x n a i j = x n b i j := by
    rw [Real.exp_eq_one_iff]
    constructor
    · intro e
      have : q ^ 2 = 0 := by linarith
      have := pow_eq_zero_iff (two_ne_zero) |>.1 this
      rw [hq, div_eq_zero_iff] at this
      rcases this with h | h
      · linarith
      · exact absurd h hs.ne'
    · intro e
      rw [hq, e]; simp
  cases mode
  · simp only [Bool.false_eq_true, if_false]
    exact ⟨h0, h1, h2⟩
  · simp only [if_true]
    refine ⟨by linarith, by linarith, ?_⟩
    rw [← h2]
    constructor <;> intro e <;> linarith

/-- C139: nearer the centre, or wider, is higher. -/
theorem metaMixture_order {mode : Bool} {x x' : Univ ℝ N ext H W} {y y' : Univ ℝ N 1 H W}
    (h : metaMixture mode x = .ok y) (h' : metaMixture mode x' = .ok y') (n : Fin N) (i : Fin H)
    (j : Fin W) (a b c : Fin ext) (ha : a.val = 0) (hb : b.val = 1) (hc : c.val = 2)
    (hw : 0 ≤ x n c i j) (hw' : x n c i j ≤ x' n c i j)
    (hd : |x' n a i j - x' n b i j| ≤ |x n a i j - x n b i j|) : y n 0 i j ≤ y' n 0 i j := by
  rw [metaMixture_cell h n i j a b c ha hb hc, metaMixture_cell h' n i j a b c ha hb hc]
  simp only [Act.eval, gaussianFn, bump, eps9]
  have hs : (0 : ℝ) < 1e-9 + (x n c i j + (1e-7 - 1e-9)) := by linarith [show (0:ℝ) < 1e-7 by norm_num]
  have hs' : (0 : ℝ) < 1e-9 + (x' n c i j + (1e-7 - 1e-9)) := by linarith
  have key : Real.exp (-((x n a i j - x n b i j) / (1e-9 + (x n c i j + (1e-7 - 1e-9)))) ^ 2 / 2) ≤
      Real.exp (-((x' n a i j - x' n b i j) / (1e-9 + (x' n c i j + (1e-7 - 1e-9)))) ^ 2 / 2) := by
    apply Real.exp_le_exp.2
    have : ((x' n a i j - x' n b i j) / (1e-9 + (x' n c i j + (1e-7 - 1e-9)))) ^ 2 ≤
        ((x n a i j - x n b i j) / (1e-9 + (x n c i j + (1e-7 - 1e-9)))) ^ 2 := by
      rw [sq_le_sq, abs_div, abs_div, abs_of_pos hs, abs_of_pos hs']
      exact div_le_div₀ (abs_nonneg _) hd hs (by linarith)
    linarith
  cases mode
  · simpa using key
  · simp only [if_true]; linarith

/-- C139: further channels, other cells and other members of the batch are not read. -/
theorem metaMixture_reads {N' ext' H' W' : Nat} {mode : Bool} {x : Univ ℝ N ext H W}
    {x' : Univ ℝ N' ext' H' W'} {y : Univ ℝ N 1 H W} {y' : Univ ℝ N' 1 H' W'}
    (h : metaMixture mode x = .ok y) (h' : metaMixture mode x' = .ok y')
    (n : Fin N) (i : Fin H) (j : Fin W) (n' : Fin N') (i' : Fin H') (j' : Fin W')
    (he : ∀ (a : Fin ext) (a' : Fin ext'), a.val = a'.val → a.val < 3 → x n a i j = x' n' a' i' j') :
    y n 0 i j = y' n' 0 i' j' := by
  have e : 3 ≤ ext := by
    by_contra hlt
    rw [(metaMixture_takes mode x).2 (by omega)] at h; cases h
  have e' : 3 ≤ ext' := by
    by_contra hlt
    rw [(metaMixture_takes mode x').2 (by omega)] at h'; cases h'
  rw [metaMixture_cell h n i j ⟨0, by omega⟩ ⟨1, by omega⟩ ⟨2, by omega⟩ rfl rfl rfl,
    metaMixture_cell h' n' i' j' ⟨0, by omega⟩ ⟨1, by omega⟩ ⟨2, by omega⟩ rfl rfl rfl,
    he ⟨0, _⟩ ⟨0, by omega⟩ rfl (by simp), he ⟨1, _⟩ ⟨1, by omega⟩ rfl (by simp),
    he ⟨2, _⟩ ⟨2, by omega⟩ rfl (by simp)]

/-- A function of one number as a module on tensors of one channel. -/
def Spec.cellwise (f : α → α) (x : Univ α N 1 H W) : Except PyErr (Univ α N 1 H W) :=
  .ok fun n c i j => f (x n c i j)

theorem mapM_ok_list {β γ : Type} (f : β → Except PyErr γ) (g : β → γ) (l : List β)
    (h : ∀ b ∈ l, f b = .ok (g b)) : l.mapM f = .ok (l.map g) := by
  induction l with
  | nil => rfl
  | cons b l ih =>
    rw [List.mapM_cons, h b (by simp), ih fun b hb => h b (by simp [hb])]
    rfl

/-- C139: for modules that work cell by cell, such as all those a config can name, the two readings
of `genesis` and `persistence` agree: the parts are the channels of the one universe. -/
theorem perSlice_cellwise (fns : List (α → α)) (x : Univ α N int H W) :
    perSlice (fns.map cellwise) x =
      (fun y => List.ofFn fun o => oneChannel y o) <$> perChannel fns x := by
  unfold perSlice perChannel
  by_cases h : fns.length = int
  · rw [dif_pos (by simpa using h), dif_pos h]
    rw [mapM_ok_list _ (fun o => fun n _ i j => fns.get (Fin.cast h.symm o) (x n o i j))]
    · simp only [Functor.map, Except.map, Except.ok.injEq]
      rw [List.ofFn_eq_map]
      rfl
    · intro o _
      simp [cellwise, oneChannel]
  · rw [dif_neg (by simpa using h), dif_neg h]
    rfl

theorem mapM_first_error {β γ : Type} (f : β → Except PyErr γ) (l : List β) (e : PyErr)
    (h : ∀ b ∈ l, (∃ c, f b = .ok c) ∨ f b = .error e) (hx : ∃ b ∈ l, f b = .error e) :
    l.mapM f = .error e := by
  induction l with
  | nil => obtain ⟨b, hb, _⟩ := hx; cases hb
  | cons b l ih =>
    rw [List.mapM_cons]
    rcases h b (by simp) with ⟨c, hc⟩ | hc
    · rw [hc]
      obtain ⟨b', hb', he⟩ := hx
      rcases List.mem_cons.1 hb' with e' | hb'
      · subst e'; rw [hc] at he; cases he
      · rw [show (Except.ok c >>= fun r => do let rs ← l.mapM f; pure (r :: rs)) =
            (do let rs ← l.mapM f; pure (c :: rs) : Except PyErr _) from rfl,
          ih (fun b hb => h b (by simp [hb])) ⟨b', hb', he⟩]
        rfl
    · rw [hc]; rfl

/-- C139: as a growth function it never works: `genesis` and `persistence` hand over one channel at
a time. -/
theorem metaMixture_no_growth (fns : List (Univ ℝ N 1 H W → Except PyErr (Univ ℝ N 1 H W)))
    (hf : ∀ f ∈ fns, (∃ g, f = cellwise g) ∨ ∃ mode, f = metaMixture mode)
    (hx : ∃ mode, metaMixture mode ∈ fns) (x : Univ ℝ N int H W) (hl : fns.length = int) :
    perSlice fns x = .error .index := by
  unfold perSlice
  rw [dif_pos hl]
  have hm : ∀ mode (z : Univ ℝ N 1 H W), metaMixture mode z = .error .index := fun mode z =>
    (metaMixture_takes mode z).2 (by omega)
  refine mapM_first_error _ _ _ (fun o _ => ?_) ?_
  · rcases hf _ (List.get_mem fns (Fin.cast hl.symm o)) with ⟨g, e⟩ | ⟨mode, e⟩
    · exact .inl ⟨_, by rw [e]; rfl⟩
    · exact .inr (by rw [e, hm])
  · obtain ⟨mode, hmem⟩ := hx
    obtain ⟨k, hk⟩ := List.get_of_mem hmem
    refine ⟨Fin.cast hl k, List.mem_finRange _, ?_⟩
    have : Fin.cast hl.symm (Fin.cast hl k) = k := rfl
    rw [this, hk, hm]

/-- C139: nor can a config name it, `get_smooth_steps_fn` or `CosOverX2`: loading such a growth function
raises KeyError. -/
theorem unused_not_named (c : ActCfg) (h : c.name = "GaussianMetaMixture" ∨
    c.name = "get_smooth_steps_fn" ∨ c.name = "CosOverX2") : Act.ofCfg c = .error .key := by
  rcases h with h | h | h <;> simp [Act.ofCfg, h]

/-- The hypotheses can be met: a universe of three channels. -/
example : ∃ (x : Univ ℝ 1 3 2 2) (y : Univ ℝ 1 1 2 2), metaMixture true x = .ok y ∧
    (∀ n i j, 0 ≤ x n 2 i j) ∧ y 0 0 0 0 < 1 := by
  let x : Univ ℝ 1 3 2 2 := fun _ c _ _ => if c = 0 then 0.5 else 0.2
  obtain ⟨y, hy⟩ := (metaMixture_takes true x).1 le_rfl
  have hw : ∀ n i j, 0 ≤ x n 2 i j := by intro n i j; simp [x]; norm_num
  refine ⟨x, y, hy, hw, ?_⟩
  obtain ⟨_, h2, h3⟩ := metaMixture_values hy 0 0 0 0 1 2 rfl rfl rfl (hw 0 0 0)
  refine lt_of_le_of_ne h2 fun e => ?_
  have := h3.1 e
  norm_num [x] at this

/-- The hypotheses of `metaMixture_no_growth` can be met. -/
example : ∃ fns : List (Univ ℝ 1 1 2 2 → Except PyErr (Univ ℝ 1 1 2 2)),
    (∀ f ∈ fns, (∃ g, f = cellwise g) ∨ ∃ mode, f = metaMixture mode) ∧
    (∃ mode, metaMixture mode ∈ fns) ∧ fns.length = 2 :=
  ⟨[cellwise id, metaMixture true], by
    intro f hf
    rcases List.mem_cons.1 hf with e | hf
    · exact .inl ⟨_, e⟩
    · exact .inr ⟨true, List.mem_singleton.1 hf⟩, ⟨true, by simp⟩, rfl⟩

end Yuca
