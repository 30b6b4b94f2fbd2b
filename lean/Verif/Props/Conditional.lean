import Verif.Model.Conditional
import Verif.Props.EntropyMap
import Mathlib.Tactic.IntervalCases
import Mathlib.Analysis.Complex.ExponentialBounds

/-!
# Conditional entropy of a grid (C131)
-/

namespace Yuca

namespace Spec

/-- The neighbour each direction is named after: top, right, bottom, left, with row 0 on top. -/
def towards : Nat → ℤ × ℤ
  | 0 => (-1, 0)
  | 1 => (0, 1)
  | 2 => (1, 0)
  | _ => (0, -1)

/-- A torus of `H` rows and `W` columns of values, as a function of any integer coordinates. -/
def Periodic (H W : Nat) {K : Type} (f : ℤ → ℤ → K) : Prop :=
  ∀ y x, f (y % H) (x % W) = f y x

/-- How many cells of the torus have level `s`. -/
def cellsAt (H W : Nat) (f : ℤ → ℤ → ℤ) (s : ℤ) : ℕ :=
  (Finset.univ.filter fun p : Fin H × Fin W => f p.1.val p.2.val = s).card

/-- How many cells of the torus have level `s` and a neighbour of level `u` at the offset `d`. -/
def pairsAt (H W : Nat) (f : ℤ → ℤ → ℤ) (d : ℤ × ℤ) (s u : ℤ) : ℕ :=
  (Finset.univ.filter fun p : Fin H × Fin W =>
    f p.1.val p.2.val = s ∧ f (p.1.val + d.1) (p.2.val + d.2) = u).card

/-- The cells that have level `s` and such a neighbour of level `u`, together with those that have
neither. -/
noncomputable def agreeing (H W : Nat) (f : ℤ → ℤ → ℤ) (d : ℤ × ℤ) (s u : ℤ) : ℝ :=
  H * W - cellsAt H W f s - cellsAt H W f u + 2 * pairsAt H W f d s u

/-- `-∑ p(s,u) log2(p(s|u))` of the distribution of the levels of the agreeing cells. -/
noncomputable def blurred (eps : ℝ) (H W : Nat) (f : ℤ → ℤ → ℤ) (d : ℤ × ℤ) : ℝ :=
  -∑ s : Fin 256, ∑ u : Fin 256, agreeing H W f d (byteVal s) (byteVal u) / (65026 * (H * W)) *
    Real.logb 2 (eps + agreeing H W f d (byteVal s) (byteVal u) /
      (255 * (H * W) - 254 * cellsAt H W f (byteVal u)))

/-- The levels of a torus between its least value `lo` and its greatest value `hi`; `nan` if there
is no difference. -/
noncomputable def levels (nan : ℤ) (H W : Nat) (g : List (List ℝ)) (lo hi : ℝ) (y x : ℤ) : ℤ :=
  if lo = hi then nan else byteLevel 0 lo hi (wrapped H W g y x)

end Spec

/-! ## Cells of a matrix -/

theorem rect_matrix {H W : Nat} {g : List (List ℝ)} (hg : Spec.Rect H W g) :
    g = (List.range H).map fun i : ℕ => (List.range W).map fun j : ℕ => Spec.wrapped H W g i j := by
  apply List.ext_getElem
  · simp [hg.1]
  intro i h1 h2
  have hi : i < H := by rw [← hg.1]; exact h1
  have hrow := hg.2 _ (List.getElem_mem h1)
  apply List.ext_getElem
  · simp [hrow]
  intro j h3 h4
  have hj : j < W := by rw [← hrow]; exact h3
  simp only [List.getElem_map, List.getElem_range]
  rw [wrapped_nat g hi hj, List.getD_eq_getElem _ _ h1, List.getD_eq_getElem _ _ h3]

theorem zip_matrix {A B : Type} (H W : Nat) (a : Nat → Nat → A) (b : Nat → Nat → B) :
    ((List.range H).map fun i => (List.range W).map (a i)).flatten.zip
        ((List.range H).map fun i => (List.range W).map (b i)).flatten =
      ((List.range H).map fun i => (List.range W).map fun j => (a i j, b i j)).flatten := by
  induction List.range H with
  | nil => rfl
  | cons i l ih =>
    simp only [List.map_cons, List.flatten_cons]
    rw [List.zip_append (by simp), ih]
    congr 1
    rw [List.zip_map']

theorem countP_matrix {A : Type} (H W : Nat) (a : ℤ → ℤ → A) (q : A → Bool) :
    ((List.range H).map fun i : ℕ => (List.range W).map fun j : ℕ => a i j).flatten.countP q =
      (Finset.univ.filter fun p : Fin H × Fin W => q (a p.1.val p.2.val) = true).card := by
  rw [List.countP_flatten, List.map_map, Finset.card_filter, Fintype.sum_prod_type]
  have hs : ∀ (n : ℕ) (F : ℕ → ℕ), ((List.range n).map F).sum = ∑ i : Fin n, F i.val := by
    intro n F
    rw [Fin.sum_univ_eq_sum_range]
    rfl
  rw [hs]
  refine Finset.sum_congr rfl fun i _ => ?_
  simp only [Function.comp]
  rw [List.countP_map, ← hs W fun j => if q (a i.val j) = true then 1 else 0]
  induction List.range W with
  | nil => rfl
  | cons j l ih =>
    rw [List.countP_cons, List.map_cons, List.sum_cons, ih, add_comm]
    rfl

/-! ## Shifts of the torus -/

theorem axis_turn {n : Nat} (hn : 0 < n) {e : ℤ} (he : e = 1 ∨ e = -1) (d : ℤ) :
    Function.Bijective fun i : Fin n =>
      (⟨((e * i.val + d) % (n : ℤ)).toNat, emod_toNat_lt _ hn⟩ : Fin n) := by
  apply Finite.injective_iff_bijective.1
  intro i j h
  have h := congrArg Fin.val h
  simp only at h
  have hi := Int.emod_nonneg (e * (i.val : ℤ) + d) (by omega : (n : ℤ) ≠ 0)
  have hj := Int.emod_nonneg (e * (j.val : ℤ) + d) (by omega : (n : ℤ) ≠ 0)
  have hq : (e * (i.val : ℤ) + d) % n = (e * j.val + d) % n := by omega
  have hd : (n : ℤ) ∣ (e * (i.val : ℤ) + d) - (e * j.val + d) :=
    Int.dvd_of_emod_eq_zero (Int.emod_emod_of_dvd _ (dvd_refl (n : ℤ)) ▸
      Int.emod_eq_emod_iff_emod_sub_eq_zero.1 hq)
  have hd : (n : ℤ) ∣ (i.val : ℤ) - j.val := by
    obtain ⟨k, hk⟩ := hd
    rcases he with rfl | rfl
    · exact ⟨k, by linarith⟩
    · exact ⟨-k, by linarith⟩
  have := Int.eq_zero_of_abs_lt_dvd hd (by rw [abs_lt]; omega)
  exact Fin.ext (by omega)

/-- Moving around a torus, or turning it round, meets every cell once. -/
theorem turned_card {H W : Nat} (hH : 0 < H) (hW : 0 < W) {K : Type} {f : ℤ → ℤ → K}
    (hf : Spec.Periodic H W f) {e e' : ℤ} (he : e = 1 ∨ e = -1) (he' : e' = 1 ∨ e' = -1) (a b : ℤ)
    (q : K → Prop) [DecidablePred q] :
    (Finset.univ.filter fun p : Fin H × Fin W => q (f (e * p.1.val + a) (e' * p.2.val + b))).card =
      (Finset.univ.filter fun p : Fin H × Fin W => q (f p.1.val p.2.val)).card := by
  have hb := (axis_turn hH he a).prodMap (axis_turn hW he' b)
  have hv : ∀ r : Fin H × Fin W, f (e * r.1.val + a) (e' * r.2.val + b) =
      f (((e * r.1.val + a) % (H : ℤ)).toNat : ℕ) (((e' * r.2.val + b) % (W : ℤ)).toNat : ℕ) := by
    intro r
    have h1 := Int.emod_nonneg (e * (r.1.val : ℤ) + a) (by omega : (H : ℤ) ≠ 0)
    have h2 := Int.emod_nonneg (e' * (r.2.val : ℤ) + b) (by omega : (W : ℤ) ≠ 0)
    rw [Int.toNat_of_nonneg h1, Int.toNat_of_nonneg h2, hf]
  refine Finset.card_bij (fun p _ => Prod.map _ _ p) ?_ (fun a _ b _ h => hb.1 h) ?_
  · intro p hp
    rw [Finset.mem_filter] at hp ⊢
    refine ⟨Finset.mem_univ _, ?_⟩
    have hp := hp.2
    rw [hv] at hp
    exact hp
  · intro p hp
    obtain ⟨r, rfl⟩ := hb.2 p
    refine ⟨r, ?_, rfl⟩
    rw [Finset.mem_filter] at hp ⊢
    refine ⟨Finset.mem_univ _, ?_⟩
    rw [hv]
    exact hp.2

theorem cellsAt_turn {H W : Nat} (hH : 0 < H) (hW : 0 < W) {f f' : ℤ → ℤ → ℤ}
    (hf : Spec.Periodic H W f) {e e' : ℤ} (he : e = 1 ∨ e = -1) (he' : e' = 1 ∨ e' = -1) {a b : ℤ}
    (h : ∀ y x, f' y x = f (e * y + a) (e' * x + b)) (s : ℤ) :
    Spec.cellsAt H W f' s = Spec.cellsAt H W f s := by
  unfold Spec.cellsAt
  simp only [h]
  exact turned_card hH hW hf he he' a b (· = s)

theorem pairsAt_turn {H W : Nat} (hH : 0 < H) (hW : 0 < W) {f f' : ℤ → ℤ → ℤ}
    (hf : Spec.Periodic H W f) {e e' : ℤ} (he : e = 1 ∨ e = -1) (he' : e' = 1 ∨ e' = -1) {a b : ℤ}
    (h : ∀ y x, f' y x = f (e * y + a) (e' * x + b)) (d : ℤ × ℤ) (s u : ℤ) :
    Spec.pairsAt H W f' d s u = Spec.pairsAt H W f (e * d.1, e' * d.2) s u := by
  unfold Spec.pairsAt
  simp only [h]
  have hF : Spec.Periodic H W fun y x => (f y x, f (y + e * d.1) (x + e' * d.2)) := by
    intro y x
    dsimp only
    rw [hf y x, ← hf (y % H + e * d.1), ← hf (y + e * d.1), Int.emod_add_emod, Int.emod_add_emod]
  have := turned_card hH hW hF he he' a b fun c => c.1 = s ∧ c.2 = u
  rw [← this]
  congr 1
  refine Finset.filter_congr fun p _ => ?_
  rw [show e * (p.1.val : ℤ) + a + e * d.1 = e * (p.1.val + d.1) + a by ring,
    show e' * (p.2.val : ℤ) + b + e' * d.2 = e' * (p.2.val + d.2) + b by ring]

theorem blurred_turn {H W : Nat} (hH : 0 < H) (hW : 0 < W) {f f' : ℤ → ℤ → ℤ}
    (hf : Spec.Periodic H W f) {e e' : ℤ} (he : e = 1 ∨ e = -1) (he' : e' = 1 ∨ e' = -1) {a b : ℤ}
    (h : ∀ y x, f' y x = f (e * y + a) (e' * x + b)) (eps : ℝ) (d : ℤ × ℤ) :
    Spec.blurred eps H W f' d = Spec.blurred eps H W f (e * d.1, e' * d.2) := by
  unfold Spec.blurred Spec.agreeing
  simp only [cellsAt_turn hH hW hf he he' h, pairsAt_turn hH hW hf he he' h]

theorem blurred_swap {H W : Nat} {f f' : ℤ → ℤ → ℤ} (h : ∀ y x, f' y x = f x y) (eps : ℝ)
    (d : ℤ × ℤ) : Spec.blurred eps W H f' d = Spec.blurred eps H W f (d.2, d.1) := by
  have hc : ∀ q : ℤ → ℤ → Prop, ∀ [DecidableRel q],
      (Finset.univ.filter fun p : Fin W × Fin H => q p.2.val p.1.val).card =
        (Finset.univ.filter fun p : Fin H × Fin W => q p.1.val p.2.val).card := by
    intro q _
    refine Finset.card_bij (fun p _ => p.swap) ?_ (fun a _ b _ h => Prod.swap_injective h) ?_
    · intro p hp
      rw [Finset.mem_filter] at hp ⊢
      exact ⟨Finset.mem_univ _, hp.2⟩
    · intro p hp
      rw [Finset.mem_filter] at hp
      exact ⟨p.swap, by rw [Finset.mem_filter]; exact ⟨Finset.mem_univ _, hp.2⟩, Prod.swap_swap p⟩
  have h1 : ∀ s, Spec.cellsAt W H f' s = Spec.cellsAt H W f s := by
    intro s
    unfold Spec.cellsAt
    simp only [h]
    exact hc fun y x => f y x = s
  have h2 : ∀ s u, Spec.pairsAt W H f' d s u = Spec.pairsAt H W f (d.2, d.1) s u := by
    intro s u
    unfold Spec.pairsAt
    simp only [h]
    exact hc fun y x => f y x = s ∧ f (y + d.2) (x + d.1) = u
  unfold Spec.blurred Spec.agreeing
  simp only [h1, h2, mul_comm (W : ℝ) (H : ℝ)]

theorem pairsAt_opposite {H W : Nat} (hH : 0 < H) (hW : 0 < W) {f : ℤ → ℤ → ℤ}
    (hf : Spec.Periodic H W f) (d : ℤ × ℤ) (s u : ℤ) :
    Spec.pairsAt H W f (-d.1, -d.2) s u = Spec.pairsAt H W f d u s := by
  unfold Spec.pairsAt
  have hF : Spec.Periodic H W fun y x => (f y x, f (y + -d.1) (x + -d.2)) := by
    intro y x
    dsimp only
    rw [hf y x, ← hf (y % H + -d.1), ← hf (y + -d.1), Int.emod_add_emod, Int.emod_add_emod]
  have := turned_card hH hW hF (Or.inl rfl) (Or.inl rfl) d.1 d.2 fun c => c.1 = s ∧ c.2 = u
  rw [← this]
  congr 1
  refine Finset.filter_congr fun p _ => ?_
  rw [show 1 * (p.1.val : ℤ) + d.1 + -d.1 = p.1.val by ring,
    show 1 * (p.2.val : ℤ) + d.2 + -d.2 = p.2.val by ring, one_mul, one_mul]
  exact and_comm

/-! ## The table -/

theorem agree_count (l : List (ℤ × ℤ)) (a b : ℤ × ℤ → Bool) :
    (l.countP (fun c => a c == b c) : ℝ) =
      l.length - l.countP a - l.countP b + 2 * l.countP fun c => a c && b c := by
  induction l with
  | nil => simp
  | cons c l ih =>
    simp only [List.countP_cons, List.length_cons]
    push_cast
    rw [ih]
    cases a c <;> cases b c <;> norm_num <;> ring

theorem column_value (l : List (ℤ × ℤ)) (h : Spec.BytePairs l) (j : Fin 256) :
    (∑ k, (jointTable l k j : ℝ)) =
      255 * l.length - 254 * l.countP fun c => decide (c.2 = (j.val : ℤ)) := by
  induction l with
  | nil => simp [jointTable]
  | cons c l ih =>
    have ih := ih fun x hx => h x (by simp [hx])
    rw [column_cons c l (h c (by simp)).1 j, ih, List.length_cons, List.countP_cons]
    push_cast
    split <;> norm_num <;> ring

/-- The bytes of a torus beside those of their neighbours. -/
def torusPairs (H W : Nat) (f : ℤ → ℤ → ℤ) (d : ℤ × ℤ) : List (ℤ × ℤ) :=
  ((List.range H).map fun i : ℕ => (List.range W).map fun j : ℕ =>
    (f i j, f (i + d.1) (j + d.2))).flatten

theorem torusPairs_length (H W : Nat) (f : ℤ → ℤ → ℤ) (d : ℤ × ℤ) :
    (torusPairs H W f d).length = H * W := by
  unfold torusPairs
  simp [List.length_flatten, Function.comp_def]

theorem torusPairs_bytes (H W : Nat) {f : ℤ → ℤ → ℤ} (hb : ∀ y x, 0 ≤ f y x ∧ f y x ≤ 255)
    (d : ℤ × ℤ) : Spec.BytePairs (torusPairs H W f d) := by
  intro c hc
  unfold torusPairs at hc
  rw [List.mem_flatten] at hc
  obtain ⟨r, hr, hc⟩ := hc
  obtain ⟨i, _, rfl⟩ := List.mem_map.1 hr
  obtain ⟨j, _, rfl⟩ := List.mem_map.1 hc
  exact ⟨hb _ _, hb _ _⟩

theorem torusPairs_count (H W : Nat) (f : ℤ → ℤ → ℤ) (d : ℤ × ℤ) (q : ℤ × ℤ → Bool) :
    (torusPairs H W f d).countP q = (Finset.univ.filter fun p : Fin H × Fin W =>
      q (f p.1.val p.2.val, f (p.1.val + d.1) (p.2.val + d.2)) = true).card :=
  countP_matrix H W (fun i j => (f i j, f (i + d.1) (j + d.2))) q

theorem neighbours_count {H W : Nat} (hH : 0 < H) (hW : 0 < W) {f : ℤ → ℤ → ℤ}
    (hf : Spec.Periodic H W f) (d : ℤ × ℤ) (u : ℤ) :
    (torusPairs H W f d).countP (fun c => decide (c.2 = u)) = Spec.cellsAt H W f u := by
  rw [torusPairs_count]
  simp only [decide_eq_true_eq]
  have := turned_card hH hW hf (Or.inl rfl) (Or.inl rfl) d.1 d.2 (· = u)
  simp only [one_mul] at this
  exact this

theorem table_entry {H W : Nat} (hH : 0 < H) (hW : 0 < W) {f : ℤ → ℤ → ℤ}
    (hf : Spec.Periodic H W f) (d : ℤ × ℤ) (s u : Fin 256) :
    (jointTable (torusPairs H W f d) s u : ℝ) =
      Spec.agreeing H W f d (Spec.byteVal s) (Spec.byteVal u) := by
  unfold jointTable Spec.agreeing
  rw [agree_count, neighbours_count hH hW hf, torusPairs_length, torusPairs_count, torusPairs_count]
  push_cast
  simp only [Bool.and_eq_true, decide_eq_true_eq]
  rfl

theorem table_column {H W : Nat} (hH : 0 < H) (hW : 0 < W) {f : ℤ → ℤ → ℤ}
    (hf : Spec.Periodic H W f) (hb : ∀ y x, 0 ≤ f y x ∧ f y x ≤ 255) (d : ℤ × ℤ) (u : Fin 256) :
    (∑ s : Fin 256, Spec.agreeing H W f d (Spec.byteVal s) (Spec.byteVal u)) =
      255 * (H * W) - 254 * Spec.cellsAt H W f (Spec.byteVal u) := by
  simp only [← table_entry hH hW hf d]
  rw [column_value _ (torusPairs_bytes H W hb d), neighbours_count hH hW hf, torusPairs_length]
  push_cast
  rfl

theorem table_whole {H W : Nat} (hH : 0 < H) (hW : 0 < W) {f : ℤ → ℤ → ℤ}
    (hf : Spec.Periodic H W f) (hb : ∀ y x, 0 ≤ f y x ∧ f y x ≤ 255) (d : ℤ × ℤ) :
    (∑ s : Fin 256, ∑ u : Fin 256, Spec.agreeing H W f d (Spec.byteVal s) (Spec.byteVal u)) =
      65026 * (H * W) := by
  simp only [← table_entry hH hW hf d]
  rw [Finset.sum_comm, table_total _ (torusPairs_bytes H W hb d), torusPairs_length]
  push_cast
  rfl

theorem pairs_value {H W : Nat} (hH : 0 < H) (hW : 0 < W) {f : ℤ → ℤ → ℤ}
    (hf : Spec.Periodic H W f) (hb : ∀ y x, 0 ≤ f y x ∧ f y x ≤ 255) (d : ℤ × ℤ) :
    conditionalEntropy (torusPairs H W f d) = Spec.blurred 1e-9 H W f d := by
  unfold conditionalEntropy Spec.blurred jointProb condProb
  simp only [table_entry hH hW hf d, table_whole hH hW hf hb d, table_column hH hW hf hb d]

/-! ## Without `eps` -/

theorem agreeing_nonneg {H W : Nat} (hH : 0 < H) (hW : 0 < W) {f : ℤ → ℤ → ℤ}
    (hf : Spec.Periodic H W f) (d : ℤ × ℤ) (s u : Fin 256) :
    0 ≤ Spec.agreeing H W f d (Spec.byteVal s) (Spec.byteVal u) := by
  rw [← table_entry hH hW hf]
  exact Nat.cast_nonneg _

theorem column_pos {H W : Nat} (hH : 0 < H) (hW : 0 < W) (f : ℤ → ℤ → ℤ) (u : ℤ) :
    (0 : ℝ) < 255 * (H * W) - 254 * Spec.cellsAt H W f u := by
  have h : Spec.cellsAt H W f u ≤ H * W := by
    unfold Spec.cellsAt
    refine (Finset.card_filter_le _ _).trans ?_
    simp
  have h : (Spec.cellsAt H W f u : ℝ) ≤ H * W := by exact_mod_cast h
  have h1 : (0 : ℝ) < H * W := by positivity
  linarith

/-- How much `eps` changes. -/
theorem blurred_close {H W : Nat} (hH : 0 < H) (hW : 0 < W) {f : ℤ → ℤ → ℤ}
    (hf : Spec.Periodic H W f) (hb : ∀ y x, 0 ≤ f y x ∧ f y x ≤ 255) (d : ℤ × ℤ) {e : ℝ}
    (he : 0 < e) :
    Spec.blurred e H W f d ≤ Spec.blurred 0 H W f d ∧
      Spec.blurred 0 H W f d - 256 * e / Real.log 2 ≤ Spec.blurred e H W f d := by
  have hN : (0 : ℝ) < H * W := by positivity
  have hcol : ∀ u : Fin 256, (0 : ℝ) < 255 * (H * W) - 254 * Spec.cellsAt H W f (Spec.byteVal u) :=
    fun u => column_pos hH hW f _
  have hform : ∀ e : ℝ, Spec.blurred e H W f d = ∑ s : Fin 256, ∑ u : Fin 256,
      (255 * (H * W) - 254 * Spec.cellsAt H W f (Spec.byteVal u)) / (65026 * (H * W)) *
      -(Spec.agreeing H W f d (Spec.byteVal s) (Spec.byteVal u) /
        (255 * (H * W) - 254 * Spec.cellsAt H W f (Spec.byteVal u)) *
        Real.logb 2 (e + Spec.agreeing H W f d (Spec.byteVal s) (Spec.byteVal u) /
          (255 * (H * W) - 254 * Spec.cellsAt H W f (Spec.byteVal u)))) := by
    intro e
    unfold Spec.blurred
    rw [← Finset.sum_neg_distrib]
    refine Finset.sum_congr rfl fun s _ => ?_
    rw [← Finset.sum_neg_distrib]
    refine Finset.sum_congr rfl fun u _ => ?_
    have h1 := (hcol u).ne'
    generalize Real.logb 2 _ = L
    generalize (255 * ((H : ℝ) * W) - 254 * Spec.cellsAt H W f (Spec.byteVal u)) = D at h1 ⊢
    field_simp
  have hz : ∀ p : ℝ, -(p * Real.logb 2 (0 + p)) = Real.negMulLog p / Real.log 2 := by
    intro p
    unfold Real.logb Real.negMulLog
    rw [zero_add]
    ring
  have hw : (∑ u : Fin 256, (255 * ((H : ℝ) * W) - 254 * Spec.cellsAt H W f (Spec.byteVal u)) /
      (65026 * (H * W))) = 1 := by
    rw [← Finset.sum_div]
    have := table_whole hH hW hf hb d
    rw [Finset.sum_comm] at this
    simp only [table_column hH hW hf hb d] at this
    rw [this]
    exact div_self (by positivity)
  have hcl : ∀ s u : Fin 256, _ := fun s u => term_close
    (div_nonneg (agreeing_nonneg hH hW hf d s u) (hcol u).le) he
  have hw0 : ∀ u : Fin 256, 0 ≤ (255 * ((H : ℝ) * W) - 254 * Spec.cellsAt H W f (Spec.byteVal u)) /
      (65026 * (H * W)) := fun u => div_nonneg (hcol u).le (by positivity)
  rw [hform, hform]
  simp only [hz]
  constructor
  · refine Finset.sum_le_sum fun s _ => Finset.sum_le_sum fun u _ => ?_
    exact mul_le_mul_of_nonneg_left (hcl s u).1 (hw0 u)
  · have hsum : (256 * e / Real.log 2) = ∑ s : Fin 256, ∑ u : Fin 256,
        (255 * ((H : ℝ) * W) - 254 * Spec.cellsAt H W f (Spec.byteVal u)) / (65026 * (H * W)) *
          (e / Real.log 2) := by
      simp only [← Finset.sum_mul, hw, Finset.sum_const, Finset.card_univ, Fintype.card_fin]
      rw [nsmul_eq_mul]
      push_cast
      ring
    rw [hsum, ← Finset.sum_sub_distrib]
    refine Finset.sum_le_sum fun s _ => ?_
    rw [← Finset.sum_sub_distrib]
    refine Finset.sum_le_sum fun u _ => ?_
    rw [← mul_sub]
    exact mul_le_mul_of_nonneg_left (hcl s u).2 (hw0 u)

/-- The table and its columns, apart. -/
theorem blurred_parts {H W : Nat} (hH : 0 < H) (hW : 0 < W) {f : ℤ → ℤ → ℤ}
    (hf : Spec.Periodic H W f) (hb : ∀ y x, 0 ≤ f y x ∧ f y x ≤ 255) (d : ℤ × ℤ) :
    Spec.blurred 0 H W f d * (65026 * (H * W)) =
      (∑ u : Fin 256, (255 * ((H : ℝ) * W) - 254 * Spec.cellsAt H W f (Spec.byteVal u)) *
        Real.logb 2 (255 * (H * W) - 254 * Spec.cellsAt H W f (Spec.byteVal u))) -
      ∑ s : Fin 256, ∑ u : Fin 256, Spec.agreeing H W f d (Spec.byteVal s) (Spec.byteVal u) *
        Real.logb 2 (Spec.agreeing H W f d (Spec.byteVal s) (Spec.byteVal u)) := by
  have hN : (0 : ℝ) < H * W := by positivity
  have hterm : ∀ s u : Fin 256,
      Spec.agreeing H W f d (Spec.byteVal s) (Spec.byteVal u) / (65026 * (H * W)) *
        Real.logb 2 (0 + Spec.agreeing H W f d (Spec.byteVal s) (Spec.byteVal u) /
          (255 * (H * W) - 254 * Spec.cellsAt H W f (Spec.byteVal u))) * (65026 * (H * W)) =
      Spec.agreeing H W f d (Spec.byteVal s) (Spec.byteVal u) *
        Real.logb 2 (Spec.agreeing H W f d (Spec.byteVal s) (Spec.byteVal u)) -
      Spec.agreeing H W f d (Spec.byteVal s) (Spec.byteVal u) *
        Real.logb 2 (255 * (H * W) - 254 * Spec.cellsAt H W f (Spec.byteVal u)) := by
    intro s u
    rcases (agreeing_nonneg hH hW hf d s u).eq_or_lt with h | h
    · rw [← h]; simp
    · rw [zero_add, Real.logb_div h.ne' (column_pos hH hW f _).ne']
      field_simp
  unfold Spec.blurred
  rw [neg_mul, Finset.sum_mul]
  simp only [Finset.sum_mul, hterm, Finset.sum_sub_distrib]
  rw [neg_sub]
  congr 1
  rw [Finset.sum_comm]
  refine Finset.sum_congr rfl fun u _ => ?_
  rw [← Finset.sum_mul, table_column hH hW hf hb d]

theorem blurred_opposite {H W : Nat} (hH : 0 < H) (hW : 0 < W) {f : ℤ → ℤ → ℤ}
    (hf : Spec.Periodic H W f) (hb : ∀ y x, 0 ≤ f y x ∧ f y x ≤ 255) (d : ℤ × ℤ) :
    Spec.blurred 0 H W f (-d.1, -d.2) = Spec.blurred 0 H W f d := by
  have hN : (0 : ℝ) < 65026 * (H * W) := by positivity
  have hA : ∀ s u : ℤ, Spec.agreeing H W f (-d.1, -d.2) s u = Spec.agreeing H W f d u s := by
    intro s u
    unfold Spec.agreeing
    rw [pairsAt_opposite hH hW hf]
    ring
  have h1 := blurred_parts hH hW hf hb (-d.1, -d.2)
  have h2 := blurred_parts hH hW hf hb d
  simp only [hA] at h1
  rw [Finset.sum_comm, ← h2] at h1
  exact mul_right_cancel₀ hN.ne' h1

/-! ## The whole function -/

theorem shiftAxis_range {K : Type} [Inhabited K] {n : Nat} (hn : 0 < n) (a : Nat → K) {s : ℤ}
    (hs : -1 ≤ s ∧ s ≤ 1) : shiftAxis ((List.range n).map a) s =
      (List.range n).map fun i : ℕ => a (((i : ℤ) + s) % (n : ℤ)).toNat := by
  have hne : (List.range n).map a ≠ [] := by
    intro h
    have := congrArg List.length h
    simp at this
    omega
  have hsp := shiftAxis_spec hne hs
  simp only [List.length_map, List.length_range] at hsp
  apply List.ext_getElem?
  intro i
  by_cases hi : i < n
  · rw [hsp.2 i hi, List.getElem?_map, List.getElem?_map, List.getElem?_range hi,
      List.getElem?_range (emod_toNat_lt _ hn)]
    rfl
  · rw [List.getElem?_eq_none (by omega), List.getElem?_eq_none (by simp; omega)]

theorem npShift_matrix {K : Type} [Inhabited K] {H W : Nat} (hH : 0 < H) (hW : 0 < W)
    {f : ℤ → ℤ → K} (hf : Spec.Periodic H W f) {s : ℤ × ℤ} (h1 : -1 ≤ s.1 ∧ s.1 ≤ 1)
    (h2 : -1 ≤ s.2 ∧ s.2 ≤ 1) :
    npShift ((List.range H).map fun i : ℕ => (List.range W).map fun j : ℕ => f i j) s =
      (List.range H).map fun i : ℕ => (List.range W).map fun j : ℕ => f (i + s.1) (j + s.2) := by
  unfold npShift
  rw [shiftAxis_range hH _ h1, List.map_map]
  apply List.map_congr_left
  intro i _
  simp only [Function.comp]
  rw [shiftAxis_range hW _ h2]
  apply List.map_congr_left
  intro j _
  have e1 := Int.emod_nonneg ((i : ℤ) + s.1) (by omega : (H : ℤ) ≠ 0)
  have e2 := Int.emod_nonneg ((j : ℤ) + s.2) (by omega : (W : ℤ) ≠ 0)
  rw [Int.toNat_of_nonneg e1, Int.toNat_of_nonneg e2, hf]

theorem wrapped_periodic (H W : Nat) (g : List (List ℝ)) :
    Spec.Periodic H W (Spec.wrapped H W g) := by
  intro y x
  unfold Spec.wrapped
  rw [Int.emod_emod_of_dvd _ (dvd_refl _), Int.emod_emod_of_dvd _ (dvd_refl _)]

theorem levels_periodic (nan : ℤ) (H W : Nat) (g : List (List ℝ)) (lo hi : ℝ) :
    Spec.Periodic H W (Spec.levels nan H W g lo hi) := by
  intro y x
  unfold Spec.levels
  rw [wrapped_periodic]

theorem wrapped_mem {H W : Nat} (hH : 0 < H) (hW : 0 < W) {g : List (List ℝ)}
    (hg : Spec.Rect H W g) (y x : ℤ) : Spec.wrapped H W g y x ∈ g.flatten := by
  have hi := emod_toNat_lt y hH
  have hj := emod_toNat_lt x hW
  rw [List.mem_flatten]
  have hrow := rect_row hg hi
  refine ⟨g.getD (y % H).toNat [], ?_, ?_⟩
  · rw [List.getD_eq_getElem _ _ (by rw [hg.1]; exact hi)]
    exact List.getElem_mem _
  · unfold Spec.wrapped
    generalize g.getD (y % H).toNat [] = row at hrow ⊢
    rw [List.getD_eq_getElem _ _ (by rw [hrow]; exact hj)]
    exact List.getElem_mem _

theorem mem_wrapped {H W : Nat} {g : List (List ℝ)} (hg : Spec.Rect H W g) {v : ℝ}
    (hv : v ∈ g.flatten) : ∃ i < H, ∃ j < W, v = Spec.wrapped H W g (i : ℕ) (j : ℕ) := by
  rw [rect_matrix hg, List.mem_flatten] at hv
  obtain ⟨r, hr, hv⟩ := hv
  obtain ⟨i, hi, rfl⟩ := List.mem_map.1 hr
  obtain ⟨j, hj, rfl⟩ := List.mem_map.1 hv
  exact ⟨i, List.mem_range.1 hi, j, List.mem_range.1 hj, rfl⟩

theorem levels_range {nan : ℤ} (hn : 0 ≤ nan ∧ nan ≤ 255) {H W : Nat} (hH : 0 < H) (hW : 0 < W)
    {g : List (List ℝ)} (hg : Spec.Rect H W g) {lo hi : ℝ} (h : Spec.Between g.flatten lo hi)
    (y x : ℤ) : 0 ≤ Spec.levels nan H W g lo hi y x ∧ Spec.levels nan H W g lo hi y x ≤ 255 := by
  unfold Spec.levels
  split
  · exact hn
  · rename_i hne
    have hv := h.2.2 _ (wrapped_mem hH hW hg y x)
    have hlt : lo < hi := lt_of_le_of_ne (between_le h) hne
    exact level_range (by linarith) le_rfl hv.1 hv.2

theorem gridBytes_eq (nan : ℤ) {H W : Nat} {g : List (List ℝ)} (hg : Spec.Rect H W g) {lo hi : ℝ}
    (h : Spec.Between g.flatten lo hi) :
    gridBytes nan g = .ok ((List.range H).map fun i : ℕ => (List.range W).map fun j : ℕ =>
      Spec.levels nan H W g lo hi i j) := by
  have h1 : npMin g.flatten = lo := npMin_eq h.1 fun y hy => (h.2.2 y hy).1
  have h2 : npMax (g.flatten.map (· - lo)) = hi - lo := by
    apply npMax_eq (List.mem_map.2 ⟨hi, h.2.1, rfl⟩)
    intro y hy
    obtain ⟨v, hv, rfl⟩ := List.mem_map.1 hy
    have := (h.2.2 v hv).2
    linarith
  have hne : g.flatten.isEmpty = false := by
    rw [List.isEmpty_eq_false_iff]
    exact List.ne_nil_of_mem h.1
  unfold gridBytes
  dsimp only
  rw [hne, if_neg (by simp), h1, h2]
  congr 1
  rw [show g.map (fun row => row.map fun x => if hi - lo = 0 then nan else toByte lo (hi - lo) 0 x) =
    ((List.range H).map fun i : ℕ => (List.range W).map fun j : ℕ =>
      Spec.wrapped H W g i j).map (fun row => row.map fun x =>
        if hi - lo = 0 then nan else toByte lo (hi - lo) 0 x) from congrArg _ (rect_matrix hg)]
  rw [List.map_map]
  apply List.map_congr_left
  intro i _
  simp only [Function.comp, List.map_map]
  apply List.map_congr_left
  intro j _
  simp only [Function.comp, Spec.levels]
  by_cases he : lo = hi
  · rw [if_pos he, if_pos (by rw [he]; ring)]
  · rw [if_neg he, if_neg fun h => he (by linarith)]
    rfl

theorem directionShift_towards {d : Nat} (hd : d < 4) : directionShift d = .ok (Spec.towards d) := by
  match d, hd with
  | 0, _ => rfl
  | 1, _ => rfl
  | 2, _ => rfl
  | 3, _ => rfl

theorem towards_range (d : Nat) : (-1 ≤ (Spec.towards d).1 ∧ (Spec.towards d).1 ≤ 1) ∧
    -1 ≤ (Spec.towards d).2 ∧ (Spec.towards d).2 ≤ 1 := by
  match d with
  | 0 => decide
  | 1 => decide
  | 2 => decide
  | n + 3 => exact ⟨⟨by simp [Spec.towards], by simp [Spec.towards]⟩, by simp [Spec.towards],
      by simp [Spec.towards]⟩

/-- C131: what is returned: the function of the numbers of cells of each level and of pairs of
neighbouring cells of each two levels, on the torus. -/
theorem conditional_value {nan : ℤ} (hn : 0 ≤ nan ∧ nan ≤ 255) {H W : Nat} (hH : 0 < H)
    (hW : 0 < W) {g : List (List ℝ)} (hg : Spec.Rect H W g) {lo hi : ℝ}
    (h : Spec.Between g.flatten lo hi) {d : Nat} (hd : d < 4) :
    conditionalOf nan g d =
      .ok (Spec.blurred 1e-9 H W (Spec.levels nan H W g lo hi) (Spec.towards d)) := by
  have hp := levels_periodic nan H W g lo hi
  unfold conditionalOf
  rw [gridBytes_eq nan hg h, directionShift_towards hd]
  simp only [bind, Except.bind]
  rw [npShift_matrix hH hW hp (towards_range d).1 (towards_range d).2,
    ← pairs_value hH hW hp (levels_range hn hH hW hg h)]
  congr 2
  exact zip_matrix H W (fun i j => Spec.levels nan H W g lo hi i j) _

theorem rect_between {H W : Nat} (hH : 0 < H) (hW : 0 < W) {g : List (List ℝ)}
    (hg : Spec.Rect H W g) : Spec.Between g.flatten (npMin g.flatten) (npMax g.flatten) :=
  between_exists (List.ne_nil_of_mem (wrapped_mem hH hW hg 0 0))

/-- C131: which calls raise. -/
theorem conditional_raises {nan : ℤ} {H W : Nat} {g : List (List ℝ)} (hg : Spec.Rect H W g) (d : Nat) :
    (H = 0 ∨ W = 0 → conditionalOf nan g d = .error .value) ∧
      (0 < H → 0 < W → 4 ≤ d → conditionalOf nan g d = .error .unbound) ∧
      (0 < H → 0 < W → d < 4 → ∃ v, conditionalOf nan g d = .ok v) := by
  refine ⟨fun h0 => ?_, fun hH hW hd => ?_, fun hH hW hd => ?_⟩
  · have he : g.flatten = [] := by
      rw [rect_matrix hg]
      rcases h0 with rfl | rfl
      · rfl
      · simp
    unfold conditionalOf gridBytes
    rw [he]
    rfl
  · unfold conditionalOf
    rw [gridBytes_eq nan hg (rect_between hH hW hg)]
    match d, hd with
    | d + 4, _ => rfl
  · unfold conditionalOf
    rw [gridBytes_eq nan hg (rect_between hH hW hg), directionShift_towards hd]
    exact ⟨_, rfl⟩

/-- C131: whatever the grid and the direction, the value is between 7.98 and 8 bits. -/
theorem conditional_range {nan : ℤ} (hn : 0 ≤ nan ∧ nan ≤ 255) {H W : Nat} (hH : 0 < H)
    (hW : 0 < W) {g : List (List ℝ)} (hg : Spec.Rect H W g) {d : Nat} (hd : d < 4) :
    ∃ v, conditionalOf nan g d = .ok v ∧ 7.98 ≤ v ∧ v ≤ 8 := by
  have h := rect_between hH hW hg
  refine ⟨_, conditional_value hn hH hW hg h hd, ?_⟩
  have hb := levels_range hn hH hW hg h
  rw [← pairs_value hH hW (levels_periodic nan H W g _ _) hb]
  refine conditional_entropy_bounds (torusPairs_bytes H W hb _) ?_
  intro he
  have hl := congrArg List.length he
  rw [torusPairs_length] at hl
  have := Nat.mul_pos hH hW
  simp only [List.length_nil] at hl
  omega

/-- C131: cells of both sides of a border count alike: opposite directions differ by no more than
what `eps` adds. -/
theorem conditional_opposite {nan : ℤ} (hn : 0 ≤ nan ∧ nan ≤ 255) {H W : Nat} (hH : 0 < H)
    (hW : 0 < W) {g : List (List ℝ)} (hg : Spec.Rect H W g) {d : Nat} (hd : d < 2) :
    ∃ a b, conditionalOf nan g d = .ok a ∧ conditionalOf nan g (d + 2) = .ok b ∧
      |a - b| ≤ 256 * 1e-9 / Real.log 2 := by
  have h := rect_between hH hW hg
  have hb := levels_range hn hH hW hg h
  have hp := levels_periodic nan H W g (npMin g.flatten) (npMax g.flatten)
  refine ⟨_, _, conditional_value hn hH hW hg h (by omega), conditional_value hn hH hW hg h (by omega),
    ?_⟩
  have ho : Spec.towards (d + 2) = (-(Spec.towards d).1, -(Spec.towards d).2) := by
    match d, hd with
    | 0, _ => rfl
    | 1, _ => rfl
  have h1 := blurred_close hH hW hp hb (Spec.towards d) (e := 1e-9) (by norm_num)
  have h2 := blurred_close hH hW hp hb (Spec.towards (d + 2)) (e := 1e-9) (by norm_num)
  rw [ho, blurred_opposite hH hW hp hb, ← ho] at h2
  rw [abs_le]
  constructor <;> linarith [h1.1, h1.2, h2.1, h2.2]

/-! ## Symmetries -/

theorem between_turn {H W H' W' : Nat} (hH : 0 < H) (hW : 0 < W) {g g' : List (List ℝ)}
    (hg : Spec.Rect H W g) (hg' : Spec.Rect H' W' g')
    (h : ∀ y x, ∃ y' x', Spec.wrapped H' W' g' y x = Spec.wrapped H W g y' x')
    (h' : ∀ y x, ∃ y' x', Spec.wrapped H W g y x = Spec.wrapped H' W' g' y' x')
    (hH' : 0 < H') (hW' : 0 < W') {lo hi : ℝ}
    (hb : Spec.Between g.flatten lo hi) : Spec.Between g'.flatten lo hi := by
  have hm : ∀ v, v ∈ g'.flatten ↔ v ∈ g.flatten := by
    intro v
    constructor
    · intro hv
      obtain ⟨i, _, j, _, rfl⟩ := mem_wrapped hg' hv
      obtain ⟨y, x, e⟩ := h i j
      rw [e]
      exact wrapped_mem hH hW hg y x
    · intro hv
      obtain ⟨i, _, j, _, rfl⟩ := mem_wrapped hg hv
      obtain ⟨y, x, e⟩ := h' i j
      rw [e]
      exact wrapped_mem hH' hW' hg' y x
  exact ⟨(hm _).2 hb.1, (hm _).2 hb.2.1, fun v hv => hb.2.2 v ((hm v).1 hv)⟩

/-- C131: moving the pattern changes nothing, mirroring it exchanges left and right or top and
bottom. -/
theorem conditional_turn {nan : ℤ} (hn : 0 ≤ nan ∧ nan ≤ 255) {H W : Nat} (hH : 0 < H)
    (hW : 0 < W) {g g' : List (List ℝ)} (hg : Spec.Rect H W g) (hg' : Spec.Rect H W g') {e e' : ℤ}
    (he : e = 1 ∨ e = -1) (he' : e' = 1 ∨ e' = -1) {a b : ℤ}
    (h : ∀ y x, Spec.wrapped H W g' y x = Spec.wrapped H W g (e * y + a) (e' * x + b)) {d d' : Nat}
    (hd : d < 4) (hd' : d' < 4)
    (ht : Spec.towards d' = (e * (Spec.towards d).1, e' * (Spec.towards d).2)) :
    conditionalOf nan g' d = conditionalOf nan g d' := by
  have hb := rect_between hH hW hg
  have hee : e * e = 1 := by rcases he with rfl | rfl <;> rfl
  have hee' : e' * e' = 1 := by rcases he' with rfl | rfl <;> rfl
  have hb' := between_turn hH hW hg hg' (fun y x => ⟨_, _, h y x⟩) (fun y x =>
    ⟨e * (y - a), e' * (x - b), by
      rw [h, ← mul_assoc, ← mul_assoc, hee, hee']; congr 1 <;> ring⟩) hH hW hb
  rw [conditional_value hn hH hW hg' hb' hd, conditional_value hn hH hW hg hb hd', ht]
  congr 1
  refine blurred_turn hH hW (levels_periodic nan H W g _ _) he he' (a := a) (b := b) (fun y x => ?_) _ _
  unfold Spec.levels
  rw [h]

/-- C131: transposing it exchanges rows and columns. -/
theorem conditional_swap {nan : ℤ} (hn : 0 ≤ nan ∧ nan ≤ 255) {H W : Nat} (hH : 0 < H)
    (hW : 0 < W) {g g' : List (List ℝ)} (hg : Spec.Rect H W g) (hg' : Spec.Rect W H g')
    (h : ∀ y x, Spec.wrapped W H g' y x = Spec.wrapped H W g x y) {d : Nat} (hd : d < 4) :
    conditionalOf nan g' d = conditionalOf nan g (3 - d) := by
  have hb := rect_between hH hW hg
  have hb' := between_turn hH hW hg hg' (fun y x => ⟨_, _, h y x⟩) (fun y x =>
    ⟨x, y, (h x y).symm⟩) hW hH hb
  rw [conditional_value hn hW hH hg' hb' hd, conditional_value hn hH hW hg hb (by omega)]
  congr 1
  rw [blurred_swap (f := Spec.levels nan H W g (npMin g.flatten) (npMax g.flatten))
    (fun y x => by unfold Spec.levels; rw [h])]
  congr 1
  match d, hd with
  | 0, _ => rfl
  | 1, _ => rfl
  | 2, _ => rfl
  | 3, _ => rfl

/-- C131: only the differences within the grid count, in units of the greatest. -/
theorem conditional_affine {nan : ℤ} (hn : 0 ≤ nan ∧ nan ≤ 255) {H W : Nat} (hH : 0 < H)
    (hW : 0 < W) {g g' : List (List ℝ)} (hg : Spec.Rect H W g) (hg' : Spec.Rect H W g') {c b : ℝ}
    (hc : 0 < c) (h : ∀ y x, Spec.wrapped H W g' y x = c * Spec.wrapped H W g y x + b) {d : Nat}
    (hd : d < 4) : conditionalOf nan g' d = conditionalOf nan g d := by
  have hb := rect_between hH hW hg
  have hb' : Spec.Between g'.flatten (c * npMin g.flatten + b) (c * npMax g.flatten + b) := by
    have hin : ∀ v ∈ g.flatten, c * v + b ∈ g'.flatten := by
      intro v hv
      obtain ⟨i, _, j, _, rfl⟩ := mem_wrapped hg hv
      rw [← h]
      exact wrapped_mem hH hW hg' _ _
    refine ⟨hin _ hb.1, hin _ hb.2.1, fun v hv => ?_⟩
    obtain ⟨i, _, j, _, rfl⟩ := mem_wrapped hg' hv
    rw [h]
    have := hb.2.2 _ (wrapped_mem hH hW hg i j)
    constructor
    · have := mul_le_mul_of_nonneg_left this.1 hc.le
      linarith
    · have := mul_le_mul_of_nonneg_left this.2 hc.le
      linarith
  rw [conditional_value hn hH hW hg' hb' hd, conditional_value hn hH hW hg hb hd]
  congr 2
  funext y x
  unfold Spec.levels
  by_cases hl : npMin g.flatten = npMax g.flatten
  · rw [if_pos hl, if_pos (by rw [hl])]
  · rw [if_neg hl, if_neg (fun e => hl (mul_left_cancel₀ hc.ne' (by linarith)))]
    unfold Spec.byteLevel
    rw [h, add_zero, add_zero]
    rw [show c * Spec.wrapped H W g y x + b - (c * npMin g.flatten + b) =
        c * (Spec.wrapped H W g y x - npMin g.flatten) by ring,
      show c * npMax g.flatten + b - (c * npMin g.flatten + b) =
        c * (npMax g.flatten - npMin g.flatten) by ring, mul_div_mul_left _ _ hc.ne']

/-! ## The average over the directions -/

/-- C131: the average of the four directions. -/
theorem multiconditional_value {nan : ℤ} {H W : Nat} (hH : 0 < H) (hW : 0 < W)
    {g : List (List ℝ)} (hg : Spec.Rect H W g) :
    ∃ v : Nat → ℝ, (∀ d < 4, conditionalOf nan g d = .ok (v d)) ∧
      multiconditionalOf nan g = .ok ((v 0 + v 1 + v 2 + v 3) / 4) := by
  obtain ⟨v0, h0⟩ := (conditional_raises (nan := nan) hg 0).2.2 hH hW (by omega)
  obtain ⟨v1, h1⟩ := (conditional_raises (nan := nan) hg 1).2.2 hH hW (by omega)
  obtain ⟨v2, h2⟩ := (conditional_raises (nan := nan) hg 2).2.2 hH hW (by omega)
  obtain ⟨v3, h3⟩ := (conditional_raises (nan := nan) hg 3).2.2 hH hW (by omega)
  refine ⟨fun d => match d with | 0 => v0 | 1 => v1 | 2 => v2 | _ => v3, ?_, ?_⟩
  · intro d hd
    match d, hd with
    | 0, _ => exact h0
    | 1, _ => exact h1
    | 2, _ => exact h2
    | 3, _ => exact h3
  · unfold multiconditionalOf
    rw [show List.range 4 = [0, 1, 2, 3] from rfl]
    simp only [List.foldlM_cons, List.foldlM_nil, h0, h1, h2, h3, bind, Except.bind, pure,
      Except.pure]
    congr 1
    ring

/-- C131: it tells no more than top and right do. -/
theorem multiconditional_two {nan : ℤ} (hn : 0 ≤ nan ∧ nan ≤ 255) {H W : Nat} (hH : 0 < H)
    (hW : 0 < W) {g : List (List ℝ)} (hg : Spec.Rect H W g) :
    ∃ m a b, multiconditionalOf nan g = .ok m ∧ conditionalOf nan g 0 = .ok a ∧
      conditionalOf nan g 1 = .ok b ∧ |m - (a + b) / 2| ≤ 128 * 1e-9 / Real.log 2 ∧
      7.98 ≤ m ∧ m ≤ 8 := by
  obtain ⟨v, hv, hm⟩ := multiconditional_value (nan := nan) hH hW hg
  refine ⟨_, _, _, hm, hv 0 (by omega), hv 1 (by omega), ?_⟩
  obtain ⟨a, b, ha, hb, h0⟩ := conditional_opposite hn hH hW hg (d := 0) (by omega)
  obtain ⟨a', b', ha', hb', h1⟩ := conditional_opposite hn hH hW hg (d := 1) (by omega)
  have ea := Except.ok.inj ((hv 0 (by omega)).symm.trans ha)
  have eb := Except.ok.inj ((hv 2 (by omega)).symm.trans hb)
  have ea' := Except.ok.inj ((hv 1 (by omega)).symm.trans ha')
  have eb' := Except.ok.inj ((hv 3 (by omega)).symm.trans hb')
  rw [← ea, ← eb, abs_le] at h0
  rw [← ea', ← eb', abs_le] at h1
  have hr : ∀ d < 4, 7.98 ≤ v d ∧ v d ≤ 8 := by
    intro d hd
    obtain ⟨w, hw, h⟩ := conditional_range hn hH hW hg hd
    rw [Except.ok.inj ((hv d hd).symm.trans hw)]
    exact h
  have r0 := hr 0 (by omega)
  have r1 := hr 1 (by omega)
  have r2 := hr 2 (by omega)
  have r3 := hr 3 (by omega)
  have hhalf : 256 * 1e-9 / Real.log 2 = 2 * (128 * 1e-9 / Real.log 2) := by ring
  rw [hhalf] at h0 h1
  refine ⟨?_, by linarith [r0.1, r1.1, r2.1, r3.1], by linarith [r0.2, r1.2, r2.2, r3.2]⟩
  rw [abs_le]
  constructor <;> linarith [h0.1, h0.2, h1.1, h1.2]

theorem multi_of {nan : ℤ} {H W H' W' : Nat} (hH : 0 < H) (hW : 0 < W) (hH' : 0 < H') (hW' : 0 < W')
    {g g' : List (List ℝ)} (hg : Spec.Rect H W g) (hg' : Spec.Rect H' W' g') (σ : Nat → Nat)
    (hσ : [σ 0, σ 1, σ 2, σ 3].Perm [0, 1, 2, 3])
    (h : ∀ d < 4, conditionalOf nan g' d = conditionalOf nan g (σ d)) :
    multiconditionalOf nan g' = multiconditionalOf nan g := by
  obtain ⟨v, hv, hm⟩ := multiconditional_value (nan := nan) hH hW hg
  obtain ⟨v', hv', hm'⟩ := multiconditional_value (nan := nan) hH' hW' hg'
  have hlt : ∀ d < 4, σ d < 4 := by
    intro d hd
    have hmem : σ d ∈ [σ 0, σ 1, σ 2, σ 3] := by
      match d, hd with
      | 0, _ => simp
      | 1, _ => simp
      | 2, _ => simp
      | 3, _ => simp
    have := hσ.mem_iff.1 hmem
    simp at this
    omega
  have he : ∀ d < 4, v' d = v (σ d) := by
    intro d hd
    exact Except.ok.inj ((hv' d hd).symm.trans ((h d hd).trans (hv _ (hlt d hd))))
  have hs := (hσ.map v).sum_eq
  simp only [List.map_cons, List.map_nil, List.sum_cons, List.sum_nil] at hs
  rw [hm, hm', he 0 (by omega), he 1 (by omega), he 2 (by omega), he 3 (by omega)]
  congr 1
  linarith

/-- C131: the average does not change when the pattern is moved, mirrored or turned. -/
theorem multiconditional_turn {nan : ℤ} (hn : 0 ≤ nan ∧ nan ≤ 255) {H W : Nat} (hH : 0 < H)
    (hW : 0 < W) {g : List (List ℝ)} (hg : Spec.Rect H W g) :
    (∀ g', Spec.Rect H W g' → ∀ e e' a b : ℤ, (e = 1 ∨ e = -1) → (e' = 1 ∨ e' = -1) →
      (∀ y x, Spec.wrapped H W g' y x = Spec.wrapped H W g (e * y + a) (e' * x + b)) →
      multiconditionalOf nan g' = multiconditionalOf nan g) ∧
    ∀ g', Spec.Rect W H g' → (∀ y x, Spec.wrapped W H g' y x = Spec.wrapped H W g x y) →
      multiconditionalOf nan g' = multiconditionalOf nan g := by
  constructor
  · intro g' hg' e e' a b he he' h
    refine multi_of hH hW hH hW hg hg' (fun d => if d = 0 ∨ d = 2 then (if e = 1 then d else 2 - d)
      else if e' = 1 then d else 4 - d) ?_ ?_
    · rcases he with rfl | rfl <;> rcases he' with rfl | rfl <;> decide
    · intro d hd
      refine conditional_turn hn hH hW hg hg' he he' h hd ?_ ?_
      · rcases he with rfl | rfl <;> rcases he' with rfl | rfl <;> interval_cases d <;> decide
      · rcases he with rfl | rfl <;> rcases he' with rfl | rfl <;> interval_cases d <;> rfl
  · intro g' hg' h
    exact multi_of hH hW hW hH hg hg' (fun d => 3 - d) (by decide) fun d hd =>
      conditional_swap hn hH hW hg hg' h hd

/-! ## What the value does not tell -/

theorem sparse_sum (L : Finset (Fin 256)) (F : Fin 256 → ℝ) (B : ℝ) (h : ∀ s ∉ L, F s = B) :
    ∑ s, F s = ∑ s ∈ L, F s + (256 - L.card) * B := by
  rw [← Finset.sum_add_sum_compl L F]
  congr 1
  rw [Finset.sum_congr rfl fun s hs => h s (Finset.mem_compl.1 hs), Finset.sum_const,
    Finset.card_compl, nsmul_eq_mul, Nat.cast_sub (by simpa using Finset.card_le_univ L)]
  simp

namespace Witness

/-- A staircase: every level has its own successor. -/
noncomputable def stairs : List (List ℝ) := [[0, 1 / 3, 2 / 3, 1]]

/-- Two levels; after each of them each of them comes once. -/
noncomputable def coins : List (List ℝ) := [[0, 0, 1, 1]]

/-- The levels of the staircase. -/
def stairLevels (_ x : ℤ) : ℤ := [0, 85, 170, 255].getD (x % 4).toNat 0

/-- The levels of the coins. -/
def coinLevels (_ x : ℤ) : ℤ := [0, 0, 255, 255].getD (x % 4).toNat 0

theorem stairs_rect : Spec.Rect 1 4 stairs := ⟨rfl, by simp [stairs]⟩

theorem coins_rect : Spec.Rect 1 4 coins := ⟨rfl, by simp [coins]⟩

theorem stairs_between : Spec.Between stairs.flatten 0 1 := by
  refine ⟨by simp [stairs], by simp [stairs], ?_⟩
  intro v hv
  simp [stairs] at hv
  rcases hv with rfl | rfl | rfl | rfl <;> norm_num

theorem coins_between : Spec.Between coins.flatten 0 1 := by
  refine ⟨by simp [coins], by simp [coins], ?_⟩
  intro v hv
  simp [coins] at hv
  rcases hv with rfl | rfl <;> norm_num

theorem mod4 (x : ℤ) : x % 4 = 0 ∨ x % 4 = 1 ∨ x % 4 = 2 ∨ x % 4 = 3 := by omega

theorem stairs_levels (nan : ℤ) : Spec.levels nan 1 4 stairs 0 1 = stairLevels := by
  funext y x
  unfold Spec.levels Spec.wrapped stairLevels Spec.byteLevel stairs
  rw [if_neg (by norm_num)]
  have hy : (y % ((1 : ℕ) : ℤ)).toNat = 0 := by omega
  rw [hy]
  push_cast
  rcases mod4 x with h | h | h | h <;> rw [h]
  · norm_num [Int.floor_eq_iff]
  · norm_num [Int.floor_eq_iff]
  · rw [show Int.toNat 2 = 2 from rfl]
    norm_num [Int.floor_eq_iff]
  · rw [show Int.toNat 3 = 3 from rfl]
    norm_num [Int.floor_eq_iff]

theorem coins_levels (nan : ℤ) : Spec.levels nan 1 4 coins 0 1 = coinLevels := by
  funext y x
  unfold Spec.levels Spec.wrapped coinLevels Spec.byteLevel coins
  rw [if_neg (by norm_num)]
  have hy : (y % ((1 : ℕ) : ℤ)).toNat = 0 := by omega
  rw [hy]
  push_cast
  rcases mod4 x with h | h | h | h <;> rw [h]
  · norm_num [Int.floor_eq_iff]
  · norm_num [Int.floor_eq_iff]
  · rw [show Int.toNat 2 = 2 from rfl]
    norm_num [Int.floor_eq_iff]
  · rw [show Int.toNat 3 = 3 from rfl]
    norm_num [Int.floor_eq_iff]

/-- Levels and successors of the staircase. -/
def stairPairs : List (ℤ × ℤ) := [(0, 85), (85, 170), (170, 255), (255, 0)]

/-- Levels and successors of the coins. -/
def coinPairs : List (ℤ × ℤ) := [(0, 0), (0, 255), (255, 255), (255, 0)]

theorem stairs_pairs : torusPairs 1 4 stairLevels (0, 1) = stairPairs := by decide

theorem coins_pairs : torusPairs 1 4 coinLevels (0, 1) = coinPairs := by decide

theorem stairs_periodic : Spec.Periodic 1 4 stairLevels := by
  intro y x; unfold stairLevels; simp

theorem coins_periodic : Spec.Periodic 1 4 coinLevels := by
  intro y x; unfold coinLevels; simp

theorem stairs_bytes (y x : ℤ) : 0 ≤ stairLevels y x ∧ stairLevels y x ≤ 255 := by
  unfold stairLevels
  rcases mod4 x with h | h | h | h <;> rw [h] <;> decide

theorem coins_bytes (y x : ℤ) : 0 ≤ coinLevels y x ∧ coinLevels y x ≤ 255 := by
  unfold coinLevels
  rcases mod4 x with h | h | h | h <;> rw [h] <;> decide

/-- The levels that occur. -/
def stairSet : Finset (Fin 256) := {0, 85, 170, 255}

/-- The levels that occur. -/
def coinSet : Finset (Fin 256) := {0, 255}

theorem stair_out {s : Fin 256} (h : s ∉ stairSet) :
    (0 : ℤ) ≠ s.val ∧ (85 : ℤ) ≠ s.val ∧ (170 : ℤ) ≠ s.val ∧ (255 : ℤ) ≠ s.val := by
  simp only [stairSet, Finset.mem_insert, Finset.mem_singleton, not_or, Fin.ext_iff] at h
  simp at h
  omega

theorem coin_out {s : Fin 256} (h : s ∉ coinSet) : (0 : ℤ) ≠ s.val ∧ (255 : ℤ) ≠ s.val := by
  simp only [coinSet, Finset.mem_insert, Finset.mem_singleton, not_or, Fin.ext_iff] at h
  simp at h
  omega

theorem stair_row_out (F : ℕ → ℝ) {s : Fin 256} (h : s ∉ stairSet) :
    ∑ u, F (jointTable stairPairs s u) = 4 * F 3 + 252 * F 4 := by
  have hs := stair_out h
  have hz : ∀ u : Fin 256, jointTable stairPairs s u =
      stairPairs.countP fun c => !decide (c.2 = (u.val : ℤ)) := by
    intro u
    simp [jointTable, stairPairs, List.countP_cons, hs]
  rw [sparse_sum stairSet _ (F 4)]
  · simp only [hz]
    have h0 : ∀ u ∈ stairSet, (stairPairs.countP fun c => !decide (c.2 = (u.val : ℤ))) = 3 := by
      decide +kernel
    rw [Finset.sum_congr rfl fun u hu => congrArg F (h0 u hu), Finset.sum_const,
      show stairSet.card = 4 by decide]
    norm_num
  · intro u hu
    have hu := stair_out hu
    rw [hz]
    congr 1
    simp [stairPairs, hu]

theorem stair_row_in (F : ℕ → ℝ) {s : Fin 256} (h : s ∈ stairSet) :
    ∑ u, F (jointTable stairPairs s u) = F 4 + 3 * F 2 + 252 * F 3 := by
  have hu3 : ∀ u ∉ stairSet, jointTable stairPairs s u = 3 := by
    intro u hu
    have hu := stair_out hu
    have hz : jointTable stairPairs s u = stairPairs.countP fun c => !decide (c.1 = (s.val : ℤ)) := by
      simp [jointTable, stairPairs, List.countP_cons, hu]
    rw [hz]
    exact (by decide +kernel : ∀ s ∈ stairSet, (stairPairs.countP fun c => !decide (c.1 = (s.val : ℤ))) = 3)
      s h
  rw [sparse_sum stairSet _ (F 3) fun u hu => congrArg F (hu3 u hu)]
  simp only [stairSet, Finset.mem_insert, Finset.mem_singleton] at h
  have hc : stairSet.card = 4 := by decide
  rw [hc]
  unfold stairSet
  rw [Finset.sum_insert (by decide), Finset.sum_insert (by decide), Finset.sum_insert (by decide),
    Finset.sum_singleton]
  rcases h with rfl | rfl | rfl | rfl
  · rw [show jointTable stairPairs 0 0 = 2 by decide, show jointTable stairPairs 0 85 = 4 by decide,
      show jointTable stairPairs 0 170 = 2 by decide, show jointTable stairPairs 0 255 = 2 by decide]
    norm_num; ring
  · rw [show jointTable stairPairs 85 0 = 2 by decide, show jointTable stairPairs 85 85 = 2 by decide,
      show jointTable stairPairs 85 170 = 4 by decide, show jointTable stairPairs 85 255 = 2 by decide]
    norm_num; ring
  · rw [show jointTable stairPairs 170 0 = 2 by decide, show jointTable stairPairs 170 85 = 2 by decide,
      show jointTable stairPairs 170 170 = 2 by decide, show jointTable stairPairs 170 255 = 4 by decide]
    norm_num; ring
  · rw [show jointTable stairPairs 255 0 = 4 by decide, show jointTable stairPairs 255 85 = 2 by decide,
      show jointTable stairPairs 255 170 = 2 by decide, show jointTable stairPairs 255 255 = 2 by decide]
    norm_num; ring

theorem coin_row_out (F : ℕ → ℝ) {s : Fin 256} (h : s ∉ coinSet) :
    ∑ u, F (jointTable coinPairs s u) = 2 * F 2 + 254 * F 4 := by
  have hs := coin_out h
  have hz : ∀ u : Fin 256, jointTable coinPairs s u =
      coinPairs.countP fun c => !decide (c.2 = (u.val : ℤ)) := by
    intro u
    simp [jointTable, coinPairs, List.countP_cons, hs]
  rw [sparse_sum coinSet _ (F 4)]
  · simp only [hz]
    have h0 : ∀ u ∈ coinSet, (coinPairs.countP fun c => !decide (c.2 = (u.val : ℤ))) = 2 := by
      decide +kernel
    rw [Finset.sum_congr rfl fun u hu => congrArg F (h0 u hu), Finset.sum_const,
      show coinSet.card = 2 by decide]
    norm_num
  · intro u hu
    have hu := coin_out hu
    rw [hz]
    congr 1
    simp [coinPairs, hu]

theorem coin_row_in (F : ℕ → ℝ) {s : Fin 256} (h : s ∈ coinSet) :
    ∑ u, F (jointTable coinPairs s u) = 256 * F 2 := by
  have hu3 : ∀ u ∉ coinSet, jointTable coinPairs s u = 2 := by
    intro u hu
    have hu := coin_out hu
    have hz : jointTable coinPairs s u = coinPairs.countP fun c => !decide (c.1 = (s.val : ℤ)) := by
      simp [jointTable, coinPairs, List.countP_cons, hu]
    rw [hz]
    exact (by decide +kernel : ∀ s ∈ coinSet, (coinPairs.countP fun c => !decide (c.1 = (s.val : ℤ))) = 2)
      s h
  have hu2 : ∀ u ∈ coinSet, jointTable coinPairs s u = 2 := fun u hu =>
    (by decide +kernel : ∀ s ∈ coinSet, ∀ u ∈ coinSet, jointTable coinPairs s u = 2) s h u hu
  have ha : ∀ u, jointTable coinPairs s u = 2 := fun u => by
    by_cases hu : u ∈ coinSet
    · exact hu2 u hu
    · exact hu3 u hu
  simp only [ha, Finset.sum_const, Finset.card_univ, Fintype.card_fin]
  norm_num

/-- `x log2 x`, of a count. -/
noncomputable def countBits (n : ℕ) : ℝ := n * Real.logb 2 n

theorem stair_columns (u : Fin 256) : (255 * (((1 : ℕ) : ℝ) * ((4 : ℕ) : ℝ)) -
    254 * Spec.cellsAt 1 4 stairLevels (Spec.byteVal u)) = if u ∈ stairSet then 766 else 1020 := by
  rw [← neighbours_count (by decide) (by decide) stairs_periodic (0, 1), stairs_pairs]
  split
  · rename_i h
    have := (by decide +kernel : ∀ u ∈ stairSet, (stairPairs.countP fun c => decide (c.2 = Spec.byteVal u)) = 1)
      u h
    rw [this]
    norm_num
  · rename_i h
    have hu := stair_out h
    have : (stairPairs.countP fun c => decide (c.2 = Spec.byteVal u)) = 0 := by
      simp [stairPairs, hu, Spec.byteVal]
    rw [this]
    norm_num

theorem coin_columns (u : Fin 256) : (255 * (((1 : ℕ) : ℝ) * ((4 : ℕ) : ℝ)) -
    254 * Spec.cellsAt 1 4 coinLevels (Spec.byteVal u)) = if u ∈ coinSet then 512 else 1020 := by
  rw [← neighbours_count (by decide) (by decide) coins_periodic (0, 1), coins_pairs]
  split
  · rename_i h
    have := (by decide +kernel : ∀ u ∈ coinSet, (coinPairs.countP fun c => decide (c.2 = Spec.byteVal u)) = 2)
      u h
    rw [this]
    norm_num
  · rename_i h
    have hu := coin_out h
    have : (coinPairs.countP fun c => decide (c.2 = Spec.byteVal u)) = 0 := by
      simp [coinPairs, hu, Spec.byteVal]
    rw [this]
    norm_num

theorem stair_total : Spec.blurred 0 1 4 stairLevels (0, 1) * 260104 =
    4 * countBits 766 + 252 * countBits 1020 -
      (4 * (countBits 4 + 3 * countBits 2 + 252 * countBits 3) +
        252 * (4 * countBits 3 + 252 * countBits 4)) := by
  have h := blurred_parts (by decide) (by decide) stairs_periodic stairs_bytes (0, 1)
  rw [show (65026 * (((1 : ℕ) : ℝ) * ((4 : ℕ) : ℝ))) = 260104 by norm_num] at h
  rw [h]
  simp only [stair_columns, ← table_entry (H := 1) (W := 4) (by decide) (by decide) stairs_periodic,
    stairs_pairs]
  congr 1
  · rw [sparse_sum stairSet _ (countBits 1020), Finset.sum_congr rfl (g := fun _ => countBits 766),
      Finset.sum_const, show stairSet.card = 4 by decide]
    · norm_num
    · intro u hu
      rw [if_pos hu]
      unfold countBits
      norm_num
    · intro u hu
      rw [if_neg hu]
      unfold countBits
      norm_num
  · rw [sparse_sum stairSet _ (4 * countBits 3 + 252 * countBits 4), Finset.sum_congr rfl
      (g := fun _ => countBits 4 + 3 * countBits 2 + 252 * countBits 3), Finset.sum_const,
      show stairSet.card = 4 by decide]
    · norm_num
      ring
    · intro u hu
      exact stair_row_in countBits hu
    · intro u hu
      exact stair_row_out countBits hu

theorem coin_total : Spec.blurred 0 1 4 coinLevels (0, 1) * 260104 =
    2 * countBits 512 + 254 * countBits 1020 -
      (2 * (256 * countBits 2) + 254 * (2 * countBits 2 + 254 * countBits 4)) := by
  have h := blurred_parts (by decide) (by decide) coins_periodic coins_bytes (0, 1)
  rw [show (65026 * (((1 : ℕ) : ℝ) * ((4 : ℕ) : ℝ))) = 260104 by norm_num] at h
  rw [h]
  simp only [coin_columns, ← table_entry (H := 1) (W := 4) (by decide) (by decide) coins_periodic,
    coins_pairs]
  congr 1
  · rw [sparse_sum coinSet _ (countBits 1020), Finset.sum_congr rfl (g := fun _ => countBits 512),
      Finset.sum_const, show coinSet.card = 2 by decide]
    · norm_num
    · intro u hu
      rw [if_pos hu]
      unfold countBits
      norm_num
    · intro u hu
      rw [if_neg hu]
      unfold countBits
      norm_num
  · rw [sparse_sum coinSet _ (2 * countBits 2 + 254 * countBits 4), Finset.sum_congr rfl
      (g := fun _ => 256 * countBits 2), Finset.sum_const, show coinSet.card = 2 by decide]
    · norm_num
    · intro u hu
      exact coin_row_in countBits hu
    · intro u hu
      exact coin_row_out countBits hu

theorem big_powers : Real.log 2 + 756 * Real.log 3 + 255 * Real.log 1020 ≤
    108 * Real.log 2 + 383 * Real.log 766 := by
  have h : ((2 : ℝ) * 3 ^ 756 * 1020 ^ 255) ≤ 2 ^ 108 * 766 ^ 383 := by
    exact_mod_cast (by decide +kernel : (2 : ℕ) * 3 ^ 756 * 1020 ^ 255 ≤ 2 ^ 108 * 766 ^ 383)
  have h := Real.log_le_log (by positivity) h
  rw [Real.log_mul (by positivity) (by positivity), Real.log_mul (by positivity) (by positivity),
    Real.log_mul (by positivity) (by positivity), Real.log_pow, Real.log_pow, Real.log_pow,
    Real.log_pow] at h
  push_cast at h
  linarith

theorem stairs_over_coins : Spec.blurred 1e-9 1 4 coinLevels (0, 1) <
    Spec.blurred 1e-9 1 4 stairLevels (0, 1) := by
  have h2 : 0 < Real.log 2 := Real.log_pos (by norm_num)
  have h2' : 0.69 < Real.log 2 := by have := Real.log_two_gt_d9; linarith
  have hA := blurred_close (H := 1) (W := 4) (by decide) (by decide) stairs_periodic stairs_bytes
    (0, 1) (e := 1e-9) (by norm_num)
  have hB := blurred_close (H := 1) (W := 4) (by decide) (by decide) coins_periodic coins_bytes
    (0, 1) (e := 1e-9) (by norm_num)
  refine lt_of_le_of_lt hB.1 (lt_of_lt_of_le ?_ hA.2)
  have h4 : Real.log 4 = 2 * Real.log 2 := by
    rw [show (4 : ℝ) = 2 ^ 2 by norm_num, Real.log_pow]; norm_num
  have h512 : Real.log 512 = 9 * Real.log 2 := by
    rw [show (512 : ℝ) = 2 ^ 9 by norm_num, Real.log_pow]; norm_num
  have key : Spec.blurred 0 1 4 coinLevels (0, 1) * 260104 * Real.log 2 + 8 * Real.log 2 ≤
      Spec.blurred 0 1 4 stairLevels (0, 1) * 260104 * Real.log 2 := by
    rw [stair_total, coin_total]
    unfold countBits Real.logb
    push_cast
    field_simp
    rw [h4, h512]
    linarith [big_powers]
  have he : 256 * 1e-9 / Real.log 2 * Real.log 2 = 256 * 1e-9 := div_mul_cancel₀ _ h2.ne'
  by_contra hcon
  push Not at hcon
  have := mul_le_mul_of_nonneg_right hcon h2.le
  rw [sub_mul, he] at this
  linarith

end Witness

namespace Witness

theorem coins_conditional : Spec.conditional coinPairs = 1 := by
  have h2 : Real.log 2 ≠ 0 := (Real.log_pos (by norm_num)).ne'
  have hq : Real.negMulLog ((1 : ℝ) / 4) / Real.log 2 = 1 / 2 := by
    unfold Real.negMulLog
    rw [one_div, Real.log_inv, show (4 : ℝ) = 2 ^ 2 by norm_num, Real.log_pow]
    field_simp
    norm_num
  have hh : Real.negMulLog ((2 : ℝ) / 4) / Real.log 2 = 1 / 2 := by
    unfold Real.negMulLog
    rw [show (2 : ℝ) / 4 = 2⁻¹ by norm_num, Real.log_inv]
    field_simp
  have hpin : ∀ s ∈ coinSet, ∀ u ∈ coinSet,
      Spec.occurrences coinPairs (Spec.byteVal s, Spec.byteVal u) = 1 := by decide +kernel
  have hin : ∀ s ∈ coinSet, Spec.occurrences (coinPairs.map Prod.snd) (Spec.byteVal s) = 2 := by
    decide +kernel
  have hps : ∀ s ∉ coinSet, ∀ u,
      Spec.occurrences coinPairs (Spec.byteVal s, Spec.byteVal u) = 0 := by
    intro s hs u
    have hs := coin_out hs
    simp [Spec.occurrences, coinPairs, Spec.byteVal, hs]
  have hpu : ∀ s, ∀ u ∉ coinSet,
      Spec.occurrences coinPairs (Spec.byteVal s, Spec.byteVal u) = 0 := by
    intro s u hu
    have hu := coin_out hu
    simp [Spec.occurrences, coinPairs, Spec.byteVal, hu]
  have hout : ∀ s ∉ coinSet, Spec.occurrences (coinPairs.map Prod.snd) (Spec.byteVal s) = 0 := by
    intro s hs
    have hs := coin_out hs
    simp [Spec.occurrences, coinPairs, Spec.byteVal, hs]
  have hcard : coinSet.card = 2 := by decide
  unfold Spec.conditional Spec.shannon
  rw [Fintype.sum_prod_type, sparse_sum coinSet _ 0, sparse_sum coinSet _ 0]
  · have h1 : ∀ s ∈ coinSet, (∑ u : Fin 256, Real.negMulLog
        ((Spec.occurrences coinPairs (Spec.byteVal s, Spec.byteVal u) : ℝ) / coinPairs.length) /
          Real.log 2) = 1 := by
      intro s hs
      rw [sparse_sum coinSet _ 0, Finset.sum_congr rfl (g := fun _ => (1 : ℝ) / 2), Finset.sum_const,
        hcard]
      · norm_num
      · intro u hu
        rw [hpin s hs u hu, ← hq]
        norm_num [coinPairs]
      · intro u hu
        rw [hpu s u hu]
        simp
    have h3 : ∀ s ∈ coinSet, Real.negMulLog
        ((Spec.occurrences (coinPairs.map Prod.snd) (Spec.byteVal s) : ℝ) /
          (coinPairs.map Prod.snd).length) / Real.log 2 = 1 / 2 := by
      intro s hs
      rw [hin s hs, ← hh]
      norm_num [coinPairs]
    rw [Finset.sum_congr rfl h1, Finset.sum_congr rfl h3, Finset.sum_const, Finset.sum_const, hcard]
    norm_num
  · intro s hs
    rw [hout s hs]
    simp
  · intro s hs
    refine Finset.sum_eq_zero fun u _ => ?_
    rw [hps s hs u]
    simp

end Witness

/-- C131, where it fails: more disorder does not mean a greater value: in a staircase every cell is
determined by its neighbour, in the row of coins it takes one bit to tell it, and the coins get the
smaller value. -/
theorem conditional_order_refuted (nan : ℤ) (hn : 0 ≤ nan ∧ nan ≤ 255) :
    Spec.conditional (torusPairs 1 4 (Spec.levels nan 1 4 Witness.stairs 0 1) (Spec.towards 1)) = 0 ∧
      Spec.conditional (torusPairs 1 4 (Spec.levels nan 1 4 Witness.coins 0 1) (Spec.towards 1)) = 1 ∧
      ∃ a b, conditionalOf nan Witness.stairs 1 = .ok a ∧ conditionalOf nan Witness.coins 1 = .ok b ∧
        b < a := by
  refine ⟨?_, ?_, _, _, conditional_value hn (by decide) (by decide) Witness.stairs_rect
    Witness.stairs_between (by decide), conditional_value hn (by decide) (by decide)
    Witness.coins_rect Witness.coins_between (by decide), ?_⟩
  · rw [Witness.stairs_levels]
    have hp : torusPairs 1 4 Witness.stairLevels (Spec.towards 1) = Witness.stairPairs :=
      Witness.stairs_pairs
    rw [hp]
    refine (conditional_entropy_refuted (f := fun u => if u = 0 then 255 else u - 85) ?_
      (by decide) ?_).1
    · intro c hc
      simp [Witness.stairPairs] at hc
      rcases hc with rfl | rfl | rfl | rfl <;> decide
    · intro c hc
      simp [Witness.stairPairs] at hc
      rcases hc with rfl | rfl | rfl | rfl <;> decide
  · rw [Witness.coins_levels]
    have hp : torusPairs 1 4 Witness.coinLevels (Spec.towards 1) = Witness.coinPairs :=
      Witness.coins_pairs
    rw [hp]
    exact Witness.coins_conditional
  · rw [Witness.stairs_levels, Witness.coins_levels]
    exact Witness.stairs_over_coins

/-- C131: all flat grids have the same value in every direction, which is not 0. -/
theorem conditional_flat {nan : ℤ} (hn : 0 ≤ nan ∧ nan ≤ 255) {H W : Nat} (hH : 0 < H)
    (hW : 0 < W) {g : List (List ℝ)} (hg : Spec.Rect H W g) {c : ℝ}
    (hc : ∀ y x, Spec.wrapped H W g y x = c) {d : Nat} (hd : d < 4) :
    conditionalOf nan g d =
      .ok (-(Real.logb 2 (1e-9 + 1) + 65025 * Real.logb 2 (1e-9 + 1 / 255)) / 65026) := by
  have hN : (0 : ℝ) < H * W := by positivity
  have hb : Spec.Between g.flatten c c := by
    have hall : ∀ v ∈ g.flatten, v = c := by
      intro v hv
      obtain ⟨i, _, j, _, rfl⟩ := mem_wrapped hg hv
      exact hc _ _
    have hin := wrapped_mem hH hW hg 0 0
    rw [hc] at hin
    exact ⟨hin, hin, fun v hv => by rw [hall v hv]; exact ⟨le_rfl, le_rfl⟩⟩
  rw [conditional_value hn hH hW hg hb hd]
  congr 1
  obtain ⟨f, hf⟩ : ∃ f, f = Spec.levels nan H W g c c := ⟨_, rfl⟩
  have hfn : ∀ y x, f y x = nan := by
    intro y x
    rw [hf]
    unfold Spec.levels
    rw [if_pos rfl]
  rw [← hf]
  obtain ⟨b, hbv⟩ : ∃ b : Fin 256, Spec.byteVal b = nan :=
    ⟨⟨nan.toNat, by omega⟩, by unfold Spec.byteVal; simp only; omega⟩
  have hinj : ∀ s : Fin 256, nan = Spec.byteVal s ↔ s = b := by
    intro s
    rw [← hbv]
    unfold Spec.byteVal
    constructor
    · intro h; exact Fin.ext (by omega)
    · intro h; rw [h]
  have h1 : ∀ s : Fin 256, (Spec.cellsAt H W f (Spec.byteVal s) : ℝ) = if s = b then (H : ℝ) * W else 0 := by
    intro s
    unfold Spec.cellsAt
    simp only [hfn, hinj]
    split
    · rename_i h
      subst h
      simp
    · rename_i h
      simp [h]
  have h2 : ∀ s u : Fin 256, (Spec.pairsAt H W f (Spec.towards d) (Spec.byteVal s) (Spec.byteVal u) : ℝ) =
      if s = b ∧ u = b then (H : ℝ) * W else 0 := by
    intro s u
    unfold Spec.pairsAt
    simp only [hfn, hinj]
    split
    · rename_i h
      obtain ⟨rfl, rfl⟩ := h
      simp
    · rename_i h
      simp [h]
  have ht : ∀ s u : Fin 256, Spec.agreeing H W f (Spec.towards d) (Spec.byteVal s) (Spec.byteVal u) =
      if s = b ↔ u = b then (H : ℝ) * W else 0 := by
    intro s u
    unfold Spec.agreeing
    rw [h1, h1, h2]
    by_cases hs : s = b <;> by_cases hu : u = b <;> simp [hs, hu] <;> ring
  have hrow : ∀ s : Fin 256, (∑ u : Fin 256,
      Spec.agreeing H W f (Spec.towards d) (Spec.byteVal s) (Spec.byteVal u) / (65026 * (H * W)) *
        Real.logb 2 (1e-9 + Spec.agreeing H W f (Spec.towards d) (Spec.byteVal s) (Spec.byteVal u) /
          (255 * (H * W) - 254 * Spec.cellsAt H W f (Spec.byteVal u)))) =
      if s = b then Real.logb 2 (1e-9 + 1) / 65026 else 255 * (Real.logb 2 (1e-9 + 1 / 255) / 65026) := by
    intro s
    rw [sparse_sum {b} _ (if s = b then 0 else Real.logb 2 (1e-9 + 1 / 255) / 65026),
      Finset.sum_singleton, Finset.card_singleton]
    · rw [ht, h1]
      by_cases hs : s = b
      · simp only [hs, if_true]
        rw [show (255 * ((H : ℝ) * W) - 254 * (H * W)) = H * W by ring, div_self hN.ne']
        generalize Real.logb 2 _ = L
        field_simp
        ring
      · simp only [hs, if_true, if_false, false_iff, not_true]
        generalize Real.logb 2 (1e-9 + 1 / 255) = L
        norm_num
    · intro u hu
      rw [Finset.mem_singleton] at hu
      rw [ht, h1]
      by_cases hs : s = b
      · simp [hs, hu]
      · simp only [hs, hu, if_true, if_false]
        rw [mul_zero, sub_zero, show (H : ℝ) * W / (255 * (H * W)) = 1 / 255 by field_simp]
        generalize Real.logb 2 _ = L
        field_simp
  unfold Spec.blurred
  simp only [hrow]
  rw [sparse_sum {b} _ (255 * (Real.logb 2 (1e-9 + 1 / 255) / 65026)), Finset.sum_singleton,
    Finset.card_singleton, if_pos rfl]
  · push_cast
    ring
  · intro s hs
    rw [Finset.mem_singleton] at hs
    rw [if_neg hs]

example : Spec.Rect 1 4 Witness.stairs ∧ Spec.Between Witness.stairs.flatten 0 1 ∧ (0 : ℝ) < 1 ∧
    ∀ y x, Spec.wrapped 1 4 Witness.stairs y x ≠ Spec.wrapped 1 4 Witness.stairs y (x + 1) :=
  ⟨Witness.stairs_rect, Witness.stairs_between, by norm_num, by
    intro y x h
    have h1 := congrFun (congrFun (Witness.stairs_levels 0) y) x
    have h2 := congrFun (congrFun (Witness.stairs_levels 0) y) (x + 1)
    unfold Spec.levels at h1 h2
    rw [h, h2] at h1
    unfold Witness.stairLevels at h1
    rcases Witness.mod4 x with e | e | e | e
    · rw [e, show (x + 1) % 4 = 1 by omega] at h1; exact absurd h1 (by decide)
    · rw [e, show (x + 1) % 4 = 2 by omega] at h1; exact absurd h1 (by decide)
    · rw [e, show (x + 1) % 4 = 3 by omega] at h1; exact absurd h1 (by decide)
    · rw [e, show (x + 1) % 4 = 0 by omega] at h1; exact absurd h1 (by decide)⟩

/-- A grid, moved by one cell, and its mirror image. -/
example : (∀ y x, Spec.wrapped 1 4 [[1, 0, 1 / 3, 2 / 3]] y x =
      Spec.wrapped 1 4 Witness.stairs (1 * y + 0) (1 * x + -1)) ∧
    ∀ y x, Spec.wrapped 1 4 [[1, 2 / 3, 1 / 3, 0]] y x =
      Spec.wrapped 1 4 Witness.stairs (1 * y + 0) (-1 * x + -1) := by
  constructor <;> intro y x <;> unfold Spec.wrapped Witness.stairs
  · rw [show (y % ((1 : ℕ) : ℤ)).toNat = 0 by omega,
      show ((1 * y + 0) % ((1 : ℕ) : ℤ)).toNat = 0 by omega]
    push_cast
    rcases Witness.mod4 x with e | e | e | e
    · rw [e, show (1 * x + -1) % 4 = 3 by omega]; rfl
    · rw [e, show (1 * x + -1) % 4 = 0 by omega]; rfl
    · rw [e, show (1 * x + -1) % 4 = 1 by omega]; rfl
    · rw [e, show (1 * x + -1) % 4 = 2 by omega]; rfl
  · rw [show (y % ((1 : ℕ) : ℤ)).toNat = 0 by omega,
      show ((1 * y + 0) % ((1 : ℕ) : ℤ)).toNat = 0 by omega]
    push_cast
    rcases Witness.mod4 x with e | e | e | e
    · rw [e, show (-1 * x + -1) % 4 = 3 by omega]; rfl
    · rw [e, show (-1 * x + -1) % 4 = 2 by omega]; rfl
    · rw [e, show (-1 * x + -1) % 4 = 1 by omega]; rfl
    · rw [e, show (-1 * x + -1) % 4 = 0 by omega]; rfl

end Yuca
