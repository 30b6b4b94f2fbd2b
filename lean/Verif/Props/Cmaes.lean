import Verif.Model.Cmaes
import Mathlib.LinearAlgebra.FiniteDimensional.Basic
import Mathlib.LinearAlgebra.Dimension.Constructions
import Mathlib.Algebra.Order.BigOperators.Ring.Finset
import Mathlib.Algebra.Order.BigOperators.Group.List
import Mathlib.Algebra.BigOperators.Fin

/-!
# Evolution (C40-C43, C45, C68, C69)
-/

namespace Yuca

/-! ## Specification -/

/-- `order` lists all positions of `f`, smallest entry first. -/
def Spec.IsArgsort {F : Type} [LE F] (f : List F) (order : List Nat) : Prop :=
  order.Perm (List.range f.length) ∧
    order.Pairwise fun i j => ∀ a ∈ f[i]?, ∀ b ∈ f[j]?, a ≤ b

/-- A correct `argsort`. -/
def Spec.Argsort {F : Type} [LE F] (argsort : List F → List Nat) : Prop :=
  ∀ f, Spec.IsArgsort f (argsort f)

/-- What numpy guarantees about the draws of a generation. -/
def Spec.DrawOk {n : Nat} (popSize : Nat) (r : Draw n) : Prop :=
  (r.brackets.length = eliteKeep popSize ∧
    ∀ b ∈ r.brackets, b.length = eliteKeep popSize ∧ ∀ i ∈ b, i < popSize) ∧
  r.picks.length = eliteKeep popSize ∧ r.picks.Nodup ∧ ∀ i ∈ r.picks, i < popSize

/-- Symmetric and positive semi-definite. -/
def Spec.Covariance {n : Nat} (C : Fin n → Fin n → ℝ) : Prop :=
  (∀ i j, C i j = C j i) ∧ ∀ x : Vec n, 0 ≤ ∑ i, ∑ j, x i * C i j * x j

/-! ## Gathering -/

theorem gather_ok_iff {K : Type} (l : List K) (is : List Nat) (r : List K) :
    gather l is = .ok r ↔ List.Forall₂ (fun i v => l[i]? = some v) is r := by
  have key : ∀ (is : List Nat) (r : List K), is.mapM (fun i => l[i]?) = some r ↔
      List.Forall₂ (fun i v => l[i]? = some v) is r := by
    intro is
    induction is with
    | nil => intro r; simp [eq_comm]
    | cons i is ih =>
      intro r
      rw [List.mapM_cons]
      constructor
      · intro h
        cases hi : l[i]? with
        | none => rw [hi] at h; cases h
        | some v =>
          rw [hi] at h
          cases hm : is.mapM (fun i => l[i]?) with
          | none => rw [hm] at h; cases h
          | some r' =>
            rw [hm] at h
            cases h
            exact .cons hi ((ih r').1 hm)
      · rintro ⟨⟩
        rename_i v r' h1 h2
        rw [h1, (ih r').2 h2]
        rfl
  unfold gather
  rw [← key]
  cases is.mapM (fun i => l[i]?) with
  | none => simp
  | some r' => simp

theorem gather_length {K : Type} {l : List K} {is : List Nat} {r : List K}
    (h : gather l is = .ok r) : r.length = is.length := ((gather_ok_iff l is r).1 h).length_eq.symm

theorem gather_get {K : Type} {l : List K} {is : List Nat} {r : List K}
    (h : gather l is = .ok r) (k i : Nat) (hi : is[k]? = some i) : l[i]? = r[k]? := by
  have h2 := (gather_ok_iff l is r).1 h
  induction h2 generalizing k with
  | nil => simp at hi
  | cons h1 h2 ih =>
    cases k with
    | zero => simp at hi; subst hi; simpa using h1
    | succ k => simpa using ih ((gather_ok_iff _ _ _).2 h2) k (by simpa using hi)

theorem gather_mem {K : Type} {l : List K} {is : List Nat} {r : List K}
    (h : gather l is = .ok r) (v : K) (hv : v ∈ r) : ∃ i ∈ is, l[i]? = some v := by
  have h2 := (gather_ok_iff l is r).1 h
  clear h
  induction h2 with
  | nil => cases hv
  | cons h1 h2 ih =>
    rcases List.mem_cons.1 hv with rfl | hv
    · exact ⟨_, List.mem_cons_self .., h1⟩
    · obtain ⟨i, hi, h3⟩ := ih hv
      exact ⟨i, List.mem_cons_of_mem _ hi, h3⟩

theorem gather_ok {K : Type} (l : List K) (is : List Nat) (h : ∀ i ∈ is, i < l.length) :
    ∃ r, gather l is = .ok r := by
  induction is with
  | nil => exact ⟨[], rfl⟩
  | cons i is ih =>
    obtain ⟨r, hr⟩ := ih fun j hj => h j (List.mem_cons_of_mem _ hj)
    have hi := h i (List.mem_cons_self ..)
    refine ⟨l[i] :: r, (gather_ok_iff _ _ _).2 ?_⟩
    exact .cons (List.getElem?_eq_getElem hi) ((gather_ok_iff _ _ _).1 hr)

/-! ## C40 -/

/-- C40: there is always an elite, and it is never larger than the population. -/
theorem eliteKeep_bounds (p : Nat) : 1 ≤ eliteKeep p ∧ (1 ≤ p → eliteKeep p ≤ p) := by
  unfold eliteKeep
  omega

/-- C40: truncation selects the fittest, fittest first. -/
theorem truncation_correct {F : Type} [LinearOrder F] (f : List F) (order : List Nat)
    (h : Spec.IsArgsort f order) (hf : 1 ≤ f.length) :
    ∃ idx, truncation (eliteKeep f.length) order = .ok idx ∧
      idx.length = eliteKeep f.length ∧ idx.Nodup ∧ (∀ i ∈ idx, i < f.length) ∧
      (∀ i ∈ idx, ∀ j, j ∉ idx → ∀ a ∈ f[i]?, ∀ b ∈ f[j]?, b ≤ a) ∧
      idx.Pairwise (fun i j => ∀ a ∈ f[i]?, ∀ b ∈ f[j]?, b ≤ a) ∧
      ∃ i ∈ idx.head?, ∀ a ∈ f[i]?, ∀ b ∈ f, b ≤ a := by
  obtain ⟨hp, hs⟩ := h
  have hlen : order.length = f.length := by simpa using hp.length_eq
  have hek := (eliteKeep_bounds f.length).2 hf
  have hek1 := (eliteKeep_bounds f.length).1
  have hrev : order.reverse.Pairwise fun i j => ∀ a ∈ f[i]?, ∀ b ∈ f[j]?, b ≤ a := by
    rw [List.pairwise_reverse]
    exact hs.imp fun hij a ha b hb => hij b hb a ha
  have hsplit : order.reverse = order.reverse.take (eliteKeep f.length) ++
      order.reverse.drop (eliteKeep f.length) := (List.take_append_drop _ _).symm
  have hnd : order.Nodup := hp.nodup_iff.2 List.nodup_range
  have hmem : ∀ i, i ∈ order.reverse ↔ i < f.length := by
    intro i; rw [List.mem_reverse, hp.mem_iff, List.mem_range]
  refine ⟨order.reverse.take (eliteKeep f.length), ?_, ?_, ?_, ?_, ?_, ?_, ?_⟩
  · unfold truncation
    rw [if_neg (by omega)]
  · rw [List.length_take, List.length_reverse, hlen]
    exact Nat.min_eq_left hek
  · exact ((List.nodup_reverse.2 hnd).sublist (List.take_sublist _ _))
  · intro i hi
    exact (hmem i).1 (List.mem_of_mem_take hi)
  · intro i hi j hj a ha b hb
    have hjlt : j < f.length := by
      by_contra hge
      rw [List.getElem?_eq_none (by omega)] at hb
      cases hb
    have hjd : j ∈ order.reverse.drop (eliteKeep f.length) := by
      have := (hmem j).2 hjlt
      rw [hsplit] at this
      exact (List.mem_append.1 this).resolve_left hj
    rw [hsplit] at hrev
    exact (List.pairwise_append.1 hrev).2.2 i hi j hjd a ha b hb
  · exact hrev.sublist (List.take_sublist _ _)
  · cases ho : order.reverse with
    | nil =>
      have : order.reverse.length = 0 := by rw [ho]; rfl
      rw [List.length_reverse] at this
      omega
    | cons i rest =>
      rw [ho] at hrev hmem
      obtain ⟨k, hk⟩ : ∃ k, eliteKeep f.length = k + 1 := ⟨eliteKeep f.length - 1, by omega⟩
      rw [hk]
      refine ⟨i, by simp, ?_⟩
      intro a ha b hb
      obtain ⟨j, hj, rfl⟩ := List.getElem_of_mem hb
      rcases List.mem_cons.1 ((hmem j).2 hj) with rfl | hjr
      · have : f[j]? = some f[j] := List.getElem?_eq_getElem hj
        rw [this] at ha
        cases ha
        exact le_rfl
      · exact (List.pairwise_cons.1 hrev).1 j hjr a ha _ (List.getElem?_eq_getElem hj)

/-- C40: an empty population cannot be ranked. -/
theorem truncation_empty {F : Type} [LinearOrder F] (order : List Nat)
    (h : Spec.IsArgsort ([] : List F) order) :
    truncation (eliteKeep 0) order = .error .index := by
  have : order = [] := by simpa using h.1.eq_nil
  subst this
  rfl

theorem argmaxFirst_spec {F : Type} [LinearOrder F] (l : List F) (h : l ≠ []) :
    ∃ a, l[argmaxFirst l]? = some a ∧ (∀ b ∈ l, b ≤ a) ∧
      ∀ j < argmaxFirst l, ∀ b ∈ l[j]?, b < a := by
  obtain ⟨m, hm, hmax⟩ : ∃ m ∈ l, ∀ b ∈ l, b ≤ m := by
    induction l with
    | nil => exact absurd rfl h
    | cons x l ih =>
      cases l with
      | nil => exact ⟨x, by simp, by simp⟩
      | cons y l =>
        obtain ⟨m, hm, hmax⟩ := ih (by simp)
        rcases le_total x m with hx | hx
        · exact ⟨m, List.mem_cons_of_mem _ hm, by
            intro b hb
            rcases List.mem_cons.1 hb with rfl | hb
            · exact hx
            · exact hmax b hb⟩
        · exact ⟨x, List.mem_cons_self .., by
            intro b hb
            rcases List.mem_cons.1 hb with rfl | hb
            · exact le_rfl
            · exact (hmax b hb).trans hx⟩
  have hlt : argmaxFirst l < l.length := by
    unfold argmaxFirst
    refine List.findIdx_lt_length_of_exists ⟨m, hm, ?_⟩
    simpa using hmax
  refine ⟨l[argmaxFirst l], List.getElem?_eq_getElem hlt, ?_, ?_⟩
  · have := List.findIdx_getElem (p := fun x => l.all fun y => decide (y ≤ x)) (w := hlt)
    simp only [List.all_eq_true, decide_eq_true_eq] at this
    exact this
  · intro j hj b hb
    have hjl : j < l.length := by omega
    have := List.not_of_lt_findIdx (p := fun x => l.all fun y => decide (y ≤ x)) hj
    rw [List.getElem?_eq_getElem hjl] at hb
    cases hb
    have hmm := List.findIdx_getElem (p := fun x => l.all fun y => decide (y ≤ x)) (w := hlt)
    simp only [List.all_eq_true, decide_eq_true_eq] at hmm
    refine lt_of_le_of_ne (hmm _ (List.getElem_mem _)) fun he => ?_
    simp only [decide_eq_true_eq, List.all_eq_false] at this
    obtain ⟨c, hc, hlt⟩ := this
    rw [he] at hlt
    exact hlt (hmm c hc)

/-- C40: each tournament champion is in its bracket and at least as fit as everyone in it. -/
theorem tournament_correct {F : Type} [LinearOrder F] (f : List F) (bs : List (List Nat))
    (hb : ∀ b ∈ bs, b ≠ [] ∧ ∀ i ∈ b, i < f.length) :
    ∃ idx, tournament f bs = .ok idx ∧
      List.Forall₂ (fun b i => i ∈ b ∧ ∀ j ∈ b, ∀ x ∈ f[i]?, ∀ y ∈ f[j]?, y ≤ x) bs idx := by
  unfold tournament
  induction bs with
  | nil => exact ⟨[], rfl, .nil⟩
  | cons b bs ih =>
    obtain ⟨idx, h1, h2⟩ := ih fun c hc => hb c (List.mem_cons_of_mem _ hc)
    obtain ⟨hne, hlt⟩ := hb b (List.mem_cons_self ..)
    obtain ⟨fs, hfs⟩ := gather_ok f b hlt
    have hlen := gather_length hfs
    have hfne : fs ≠ [] := by
      rintro rfl
      exact hne (List.length_eq_zero_iff.1 hlen.symm)
    obtain ⟨a, ha, hmax, _⟩ := argmaxFirst_spec fs hfne
    have hi : argmaxFirst fs < b.length := by
      rw [← hlen]
      exact (List.getElem?_eq_some_iff.1 ha).1
    refine ⟨b[argmaxFirst fs] :: idx, ?_, ?_⟩
    · have hc : champion f b = .ok b[argmaxFirst fs] := by
        unfold champion
        rw [hfs]
        dsimp only
        rw [List.getElem?_eq_getElem hi]
      rw [List.mapM_cons, hc, h1]
      rfl
    · refine .cons ⟨List.getElem_mem _, ?_⟩ h2
      intro j hj x hx y hy
      have e1 := gather_get hfs _ _ (List.getElem?_eq_getElem hi)
      rw [ha] at e1
      rw [e1] at hx
      cases hx
      obtain ⟨k, hk, rfl⟩ := List.getElem_of_mem hj
      have e2 := gather_get hfs k _ (List.getElem?_eq_getElem hk)
      rw [e2] at hy
      exact hmax y (List.mem_of_getElem? hy)

/-- C40: the lottery draws `elite_keep` different agents. -/
theorem lottery_correct {F : Type} [LinearOrder F] (f : List F) (order picks : List Nat)
    (h : Spec.IsArgsort f order) (hp : picks.Nodup) (hl : ∀ i ∈ picks, i < f.length) :
    ∃ idx, lottery order picks = .ok idx ∧ idx.length = picks.length ∧ idx.Nodup ∧
      ∀ i ∈ idx, i < f.length := by
  have hlen : order.reverse.length = f.length := by simpa using h.1.length_eq
  obtain ⟨idx, hidx⟩ := gather_ok order.reverse picks fun i hi => by rw [hlen]; exact hl i hi
  refine ⟨idx, hidx, gather_length hidx, ?_, ?_⟩
  · rw [List.nodup_iff_injective_get]
    have hnd : order.reverse.Nodup := List.nodup_reverse.2 (h.1.nodup_iff.2 List.nodup_range)
    have hl2 := gather_length hidx
    intro a b hab
    have key : ∀ c : Fin idx.length, order.reverse[picks[c.val]'(by omega)]? = some (idx.get c) := by
      intro c
      rw [gather_get hidx c.val _ (List.getElem?_eq_getElem (by omega))]
      exact List.getElem?_eq_getElem c.isLt
    have e := (key a).trans ((congrArg some hab).trans (key b).symm)
    have ha : picks[a.val]'(by omega) < order.reverse.length := by
      rw [hlen]; exact hl _ (List.getElem_mem _)
    have e2 := (List.getElem?_inj ha hnd).1 e
    exact Fin.ext ((List.Nodup.getElem_inj_iff hp).1 e2)
  · intro i hi
    obtain ⟨k, _, hk⟩ := gather_mem hidx i hi
    have := List.mem_of_getElem? hk
    rw [List.mem_reverse, h.1.mem_iff, List.mem_range] at this
    exact this

/-- C40: the lottery probabilities are positive, sum to 1 and strictly decrease with rank. -/
theorem lottery_probability (n : Nat) (hn : 1 ≤ n) :
    (lotteryProbability n).length = n ∧ (∀ p ∈ lotteryProbability n, 0 < p) ∧
      (lotteryProbability n).sum = 1 ∧ (lotteryProbability n).Pairwise (· > ·) := by
  have hpos : ∀ x ∈ (List.range n).map fun i : Nat => 1 / ((i : ℝ) + 1) ^ 2, 0 < x := by
    intro x hx
    obtain ⟨i, _, rfl⟩ := List.mem_map.1 hx
    positivity
  have hsum : 0 < ((List.range n).map fun i : Nat => 1 / ((i : ℝ) + 1) ^ 2).sum := by
    apply List.sum_pos _ hpos
    intro h
    have := congrArg List.length h
    simp at this
    omega
  unfold lotteryProbability
  dsimp only
  generalize hp : (List.range n).map (fun i : Nat => 1 / ((i : ℝ) + 1) ^ 2) = p at hpos hsum
  refine ⟨by rw [← hp]; simp, ?_, ?_, ?_⟩
  · intro x hx
    obtain ⟨y, hy, rfl⟩ := List.mem_map.1 hx
    exact div_pos (hpos y hy) hsum
  · have : ∀ (l : List ℝ) (c : ℝ), (l.map (· / c)).sum = l.sum / c := by
      intro l c
      induction l with
      | nil => simp
      | cons x l ih => simp [ih, add_div]
    rw [this]
    exact div_self hsum.ne'
  · rw [List.pairwise_map, ← hp, List.pairwise_map]
    refine List.pairwise_lt_range.imp fun {i j} hij => ?_
    have h1 : (i : ℝ) < j := by exact_mod_cast hij
    have h0 : (0 : ℝ) ≤ i := Nat.cast_nonneg i
    rw [hp]
    refine div_lt_div_of_pos_right ?_ hsum
    exact one_div_lt_one_div_of_lt (by positivity) (by nlinarith)

/-- C40, exception: an agent whose fitness is NaN beats every other. -/
theorem nan_is_best (f : List Fit) (order : List Nat) (h : Spec.IsArgsort f order)
    (hn : ⊤ ∈ f) :
    ∃ idx, truncation (eliteKeep f.length) order = .ok idx ∧ ∃ i ∈ idx.head?, f[i]? = some ⊤ := by
  have hf : 1 ≤ f.length := List.length_pos_of_mem hn
  obtain ⟨idx, h1, _, _, h4, _, _, i, hi, h7⟩ := truncation_correct f order h hf
  refine ⟨idx, h1, i, hi, ?_⟩
  have hlt : i < f.length := h4 i (List.mem_of_mem_head? hi)
  have := h7 f[i] (List.getElem?_eq_getElem hlt) ⊤ hn
  rw [List.getElem?_eq_getElem hlt, top_le_iff.1 this]

/-- Sorting three fitness values. -/
example : Spec.IsArgsort [(3 : ℚ), 1, 2] [1, 2, 0] ∧
    truncation (eliteKeep 3) [1, 2, 0] = .ok [0] := by
  refine ⟨⟨by decide, ?_⟩, rfl⟩
  decide

end Yuca
