import Verif.Model.KernelLoad
import Mathlib.Data.List.Basic
import Mathlib.Tactic.Ring

/-!
# Which kernels an automaton takes (C102)
-/

namespace Yuca

variable {α : Type} {ext int : Nat}

namespace Spec

/-- The shapes both `add_…_kernel` methods let through, with the side. -/
def Taken (shape : List Nat) (k : Nat) : Prop := shape = [k, k] ∨ ∃ a b, shape = [a, b, k, k]

/-- How many channels an internal channel reads. -/
def reads (ext int : Nat) : Nat := if ext ∣ int then 1 else ext

/-- The shapes that also fit into the layer. -/
def Fitting (ext int : Nat) (shape : List Nat) (k : Nat) : Prop :=
  shape = [k, k] ∨ ∃ a b, shape = [a, b, k, k] ∧ (a = 1 ∨ a = int) ∧ (b = 1 ∨ b = reads ext int)

/-- The kernel entry meant for internal channel `o` and the `c`-th channel it reads: one matrix
serves all, an axis of length 1 serves all channels. -/
def entryFor (t : Tensor α) (o c i j : Nat) : α :=
  match t.shape with
  | [_, _] => t.val [i, j]
  | [a, b, _, _] => t.val [if a = 1 then 0 else o, if b = 1 then 0 else c, i, j]
  | _ => t.val []

end Spec

open Spec

theorem reads_eq (hext : 0 < ext) : ext / groups ext int = reads ext int := by
  unfold groups reads
  by_cases h : ext ∣ int
  · rw [if_neg (by simpa using Nat.mod_eq_zero_of_dvd h), if_pos h, Nat.div_self hext]
  · rw [if_pos (by simpa [Nat.dvd_iff_mod_eq_zero] using h), if_neg h, Nat.div_one]

theorem toFour_two {t : Tensor α} {a b : Nat} (h : t.shape = [a, b]) :
    ∃ f, t.toFour = .ok ⟨[1, 1, a, b], f⟩ ∧ ∀ i j, i < a → j < b → f [0, 0, i, j] = t.val [i, j] := by
  refine ⟨fun idx => t.val (unflatIdx [a, b] (flatIdx [1, 1, a, b] idx)), ?_, fun i j hi hj => ?_⟩
  · unfold Tensor.toFour
    rw [h]
    simp only [Tensor.reshape, h]
    rw [if_pos (by simp)]
  · have hb : 0 < b := by omega
    simp only [flatIdx, unflatIdx, List.prod_cons, List.prod_nil, mul_one, add_zero, Nat.zero_mul,
      Nat.zero_add, Nat.div_one]
    rw [Nat.mul_comm i b, Nat.mul_add_div hb, Nat.div_eq_of_lt hj, Nat.add_zero,
      Nat.mul_add_mod, Nat.mod_eq_of_lt hj]

theorem side_ok {t : Tensor α} {k : Nat} : t.side = .ok k ↔ ∃ a b, t.shape = [a, b, k, k] := by
  unfold Tensor.side
  split
  · rename_i a b y x h
    rw [h]
    by_cases e : x = y
    · subst e
      simp
    · rw [if_neg e]
      simp only [reduceCtorEq, false_iff, not_exists]
      intro a' b' h'
      simp only [List.cons.injEq, and_true] at h'
      exact e (h'.2.2.2.trans h'.2.2.1.symm)
  · rename_i h
    simp only [reduceCtorEq, false_iff, not_exists]
    intro a b h'
    exact h a b k k h'

/-- Reshape and checks together. -/
theorem toFour_side {t : Tensor α} {k : Nat} :
    (∃ t4, t.toFour = .ok t4 ∧ t4.side = .ok k) ↔ Taken t.shape k := by
  unfold Taken
  constructor
  · rintro ⟨t4, h1, h2⟩
    obtain ⟨a, b, h2⟩ := side_ok.1 h2
    unfold Tensor.toFour Tensor.reshape at h1
    split at h1
    · rename_i x y e
      left
      split at h1
      · cases h1
        simp only [List.cons.injEq, and_true] at h2
        rw [e, h2.2.2.1, h2.2.2.2]
      · cases h1
    · split at h1
      · cases h1
        simp at h2
      · cases h1
    · cases h1
      exact Or.inr ⟨a, b, h2⟩
  · rintro (h | ⟨a, b, h⟩)
    · obtain ⟨f, h1, _⟩ := toFour_two h
      exact ⟨_, h1, side_ok.2 ⟨1, 1, rfl⟩⟩
    · refine ⟨t, ?_, side_ok.2 ⟨a, b, h⟩⟩
      unfold Tensor.toFour
      rw [h]

/-- C102: a neighborhood kernel is taken exactly when it is a square matrix or has four axes of
which the last two are alike; one that is not taken leaves everything as it was. -/
theorem neighborhood_taken (s : Kernels α ext int) (t : Tensor α) :
    ((s.addNeighborhood t).2 = .ok () ↔ ∃ k, Taken t.shape k) ∧
    ((s.addNeighborhood t).2 ≠ .ok () → (s.addNeighborhood t).1 = s) := by
  simp only [← toFour_side]
  unfold Kernels.addNeighborhood
  cases h1 : t.toFour with
  | error e => simp
  | ok t4 => cases h2 : t4.side <;> simp [h2]

/-- C102: the same for identity kernels, except that a kernel that is not taken stays in
`id_kernel`; the side and the layer do not change. -/
theorem identity_taken [Arith α] (s : Kernels α ext int) (t : Tensor α) :
    ((s.addIdentity (some t)).2 = .ok () ↔ ∃ k, Taken t.shape k) ∧
    ((s.addIdentity (some t)).2 ≠ .ok () → ∃ t', (s.addIdentity (some t)).1 =
      { s with idKernel := some t' } ∧ (t' = t ∨ t.toFour = .ok t')) := by
  simp only [← toFour_side]
  unfold Kernels.addIdentity
  simp only [Option.getD_some]
  cases h1 : t.toFour with
  | error e => simp
  | ok t4 => cases h2 : t4.side <;> simp [h2]

/-- C102: a kernel with three axes is never taken, although the code reshapes it. -/
theorem three_axes_rejected (s : Kernels α ext int) (t : Tensor α) {a b c : Nat}
    (h : t.shape = [a, b, c]) (hab : 0 < a * b) :
    (s.addNeighborhood t).2 = .error (if c = 1 then .assertion else .runtime) := by
  unfold Kernels.addNeighborhood Tensor.toFour Tensor.reshape
  simp only [h]
  have hp : ([a, b, c].prod = [1, a, b].prod) ↔ c = 1 := by
    simp only [List.prod_cons, List.prod_nil, mul_one, one_mul]
    rw [← mul_assoc]
    constructor
    · intro h
      exact Nat.eq_of_mul_eq_mul_left hab (by rw [h, mul_one])
    · rintro rfl
      rw [mul_one]
  by_cases hc : c = 1
  · rw [if_pos (hp.2 hc), if_pos hc]
    rfl
  · rw [if_neg (fun e => hc (hp.1 e)), if_neg hc]

/-- Copying a tensor with four axes. -/
theorem copy_four {t : Tensor α} {a b k n p : Nat} (h : t.shape = [a, b, k, k]) :
    t.copyInto [n, p, k, k] = if (a = 1 ∨ a = n) ∧ (b = 1 ∨ b = p) then
      .ok (fun idx => t.val (List.zipWith (fun d i => if d = 1 then 0 else i) [a, b, k, k]
        (idx.drop (idx.length - 4)))) else .error .runtime := by
  have hs : stripOnes 4 [a, b, k, k] = [a, b, k, k] := by
    unfold stripOnes
    split
    · rename_i h; simp only [List.cons.injEq] at h; obtain ⟨rfl, rfl⟩ := h; rfl
    · rfl
  unfold Tensor.copyInto
  simp only [h, List.length_cons, List.length_nil, hs, Nat.reduceAdd]
  by_cases hc : (a = 1 ∨ a = n) ∧ (b = 1 ∨ b = p)
  · rw [if_pos hc, if_pos (by simpa [fitsInto] using ⟨hc.2, hc.1⟩)]
    simp
  · rw [if_neg hc, if_neg (by simpa [fitsInto, and_comm] using hc)]

theorem entry_four {t : Tensor α} {a b k : Nat} (h : t.shape = [a, b, k, k]) (o c : Nat)
    (i j : Fin k) : t.val (List.zipWith (fun d i => if d = 1 then 0 else i) [a, b, k, k]
      [o, c, i.val, j.val]) = entryFor t o c i.val j.val := by
  unfold entryFor
  rw [h]
  simp only [List.zipWith_cons_cons, List.zipWith_nil_left]
  by_cases hk : k = 1
  · subst hk
    simp
  · simp [hk]

/-- What building the layer does with a taken kernel. -/
theorem build_layer (hext : 0 < ext) (mode : PadMode) {t t4 : Tensor α} {k : Nat}
    (init : Fin int → Fin (ext / groups ext int) → Fin k → Fin k → α) (h4 : t.toFour = .ok t4)
    (hk : t4.side = .ok k) :
    (Fitting ext int t.shape k → buildLayer ext int mode k init t4 =
      (some ⟨k, mode, fun o c i j => entryFor t o.val c.val i.val j.val⟩, .ok ())) ∧
    (¬ Fitting ext int t.shape k → buildLayer ext int mode k init t4 =
      (some ⟨k, mode, init⟩, .error .runtime)) := by
  have hT := toFour_side.1 ⟨t4, h4, hk⟩
  unfold buildLayer Fitting
  rw [if_neg (by omega)]
  rcases hT with h | ⟨a, b, h⟩
  · refine ⟨fun _ => ?_, fun hn => absurd (Or.inl h) hn⟩
    obtain ⟨f, h5, h6⟩ := toFour_two h
    rw [h4] at h5
    cases h5
    rw [copy_four (t := ⟨[1, 1, k, k], f⟩) rfl, if_pos ⟨Or.inl rfl, Or.inl rfl⟩]
    simp only [Prod.mk.injEq, and_true, Option.some.injEq, ConvLayer.mk.injEq, heq_eq_eq, true_and]
    funext o c i j
    have := entry_four (t := ⟨[1, 1, k, k], f⟩) rfl o.val c.val i j
    simp only [List.length_cons, List.length_nil, Nat.reduceAdd, Nat.sub_self, List.drop_zero] at *
    rw [this]
    unfold entryFor
    rw [h]
    exact h6 _ _ i.isLt j.isLt
  · have e : t4 = t := by
      unfold Tensor.toFour at h4
      rw [h] at h4
      cases h4; rfl
    subst e
    rw [copy_four h]
    have hiff : (t4.shape = [k, k] ∨ ∃ a b, t4.shape = [a, b, k, k] ∧ (a = 1 ∨ a = int) ∧
        (b = 1 ∨ b = reads ext int)) ↔ (a = 1 ∨ a = int) ∧ (b = 1 ∨ b = ext / groups ext int) := by
      rw [h, reads_eq hext]
      simp
    rw [hiff]
    refine ⟨fun hc => ?_, fun hc => ?_⟩
    · rw [if_pos hc]
      simp only [Prod.mk.injEq, and_true, Option.some.injEq, ConvLayer.mk.injEq, heq_eq_eq, true_and]
      funext o c i j
      have := entry_four h o.val c.val i j
      simpa using this
    · rw [if_neg hc]

/-- C102: after a taken kernel the layer can be built exactly when the first axis is 1 or the number
of internal channels and the second is 1 or the number of channels read; it then holds the entry
meant for each pair of channels.  Otherwise it is built with torch's random weights and a
RuntimeError. -/
theorem neighborhood_layer (hext : 0 < ext) (s : Kernels α ext int) (t : Tensor α) {k : Nat}
    (hT : Taken t.shape k) (init : ∀ k, Fin int → Fin (ext / groups ext int) → Fin k → Fin k → α) :
    let s' := ((s.addNeighborhood t).1.initNb init)
    (Fitting ext int t.shape k → s'.2 = .ok () ∧ s'.1.nbLayer =
      some ⟨k, s.mode, fun o c i j => entryFor t o.val c.val i.val j.val⟩) ∧
    (¬ Fitting ext int t.shape k → s'.2 = .error .runtime ∧
      s'.1.nbLayer = some ⟨k, s.mode, init k⟩) := by
  obtain ⟨t4, h1, h2⟩ := toFour_side.2 hT
  obtain ⟨b1, b2⟩ := build_layer hext s.mode (init k) h1 h2
  have hs : (s.addNeighborhood t).1 = { s with nbKernel := some t4, nbDim := some k } := by
    unfold Kernels.addNeighborhood
    simp only [h1, h2]
  simp only [hs, Kernels.initNb]
  exact ⟨fun h => by rw [b1 h]; exact ⟨rfl, rfl⟩, fun h => by rw [b2 h]; exact ⟨rfl, rfl⟩⟩

/-- C102: the same for the identity layer. -/
theorem identity_layer [Arith α] (hext : 0 < ext) (s : Kernels α ext int) (t : Tensor α) {k : Nat}
    (hT : Taken t.shape k) (init : ∀ k, Fin int → Fin (ext / groups ext int) → Fin k → Fin k → α) :
    let s' := ((s.addIdentity (some t)).1.initId init)
    (Fitting ext int t.shape k → s'.2 = .ok () ∧ s'.1.idLayer =
      some ⟨k, s.mode, fun o c i j => entryFor t o.val c.val i.val j.val⟩) ∧
    (¬ Fitting ext int t.shape k → s'.2 = .error .runtime ∧
      s'.1.idLayer = some ⟨k, s.mode, init k⟩) := by
  obtain ⟨t4, h1, h2⟩ := toFour_side.2 hT
  obtain ⟨b1, b2⟩ := build_layer hext s.mode (init k) h1 h2
  have hs : (s.addIdentity (some t)).1 = { s with idKernel := some t4, idDim := some k } := by
    unfold Kernels.addIdentity
    simp only [Option.getD_some, h1, h2]
  simp only [hs, Kernels.initId]
  exact ⟨fun h => by rw [b1 h]; exact ⟨rfl, rfl⟩, fun h => by rw [b2 h]; exact ⟨rfl, rfl⟩⟩

/-- C102: without a kernel argument the identity layer is the default one. -/
theorem default_identity_layer [Arith α] (hext : 0 < ext) (s : Kernels α ext int)
    (init : ∀ k, Fin int → Fin (ext / groups ext int) → Fin k → Fin k → α) :
    ((s.addIdentity none).1.initId init).2 = .ok () ∧
    ((s.addIdentity none).1.initId init).1.idLayer = some (identityLayer ext int s.mode) := by
  have hd : s.addIdentity none = s.addIdentity (some defaultId) := rfl
  obtain ⟨h, -⟩ := identity_layer hext s (defaultId : Tensor α) (k := 3) (Or.inr ⟨1, 1, rfl⟩) init
  obtain ⟨h1, h2⟩ := h (Or.inr ⟨1, 1, rfl, Or.inl rfl, Or.inl rfl⟩)
  rw [hd]
  refine ⟨h1, h2.trans ?_⟩
  unfold identityLayer ConvLayer.ofKernel
  congr 2
  funext o c i j
  unfold entryFor defaultId identityKernel
  simp [Fin.ext_iff]

/-- C102: a kernel that was refused can end up in the identity layer all the same: `add` raises for
the shape `(k, k, 1)`, and the next `initialize_id_layer` uses the kernel. -/
theorem refused_kernel_used [Arith α] (hext : 0 < ext) (s : Kernels α ext int) (t : Tensor α)
    {k : Nat} (hk : 0 < k) (hd : s.idDim = some k) (ht : t.shape = [k, k, 1])
    (init : ∀ k, Fin int → Fin (ext / groups ext int) → Fin k → Fin k → α) :
    (s.addIdentity (some t)).2 = .error .assertion ∧
    ((s.addIdentity (some t)).1.initId init).2 = .ok () ∧
    ((s.addIdentity (some t)).1.initId init).1.idLayer =
      some (.ofKernel ext int s.mode k fun i j => t.val [i.val, j.val, 0]) := by
  have h1 : t.toFour = .ok ⟨[1, k, k],
      fun idx => t.val (unflatIdx [k, k, 1] (flatIdx [1, k, k] idx))⟩ := by
    unfold Tensor.toFour
    rw [ht]
    simp only [Tensor.reshape, ht]
    rw [if_pos (by simp)]
  have hs : s.addIdentity (some t) = ({ s with idKernel := some ⟨[1, k, k],
      fun idx => t.val (unflatIdx [k, k, 1] (flatIdx [1, k, k] idx))⟩ }, .error .assertion) := by
    unfold Kernels.addIdentity
    simp only [Option.getD_some, h1]
    rfl
  have hc : ∀ p : Nat, Tensor.copyInto (α := α) ⟨[1, k, k],
      fun idx => t.val (unflatIdx [k, k, 1] (flatIdx [1, k, k] idx))⟩ [int, p, k, k] =
      .ok fun idx => t.val (unflatIdx [k, k, 1] (flatIdx [1, k, k]
        (List.zipWith (fun d i => if d = 1 then 0 else i) [1, k, k]
          (idx.drop (idx.length - 3))))) := by
    intro p
    have hst : stripOnes 4 [1, k, k] = [1, k, k] := by simp [stripOnes]
    unfold Tensor.copyInto
    simp only [List.length_cons, List.length_nil, Nat.reduceAdd, hst]
    rw [if_pos (by simp [fitsInto])]
    simp
  refine ⟨by rw [hs], ?_, ?_⟩
  · rw [hs]
    unfold Kernels.initId buildLayer
    simp only [hd, hc]
    rw [if_neg (by omega)]
  · rw [hs]
    unfold Kernels.initId buildLayer
    simp only [hd, hc]
    rw [if_neg (by omega)]
    simp only [Option.some_or, ConvLayer.ofKernel]
    congr 2
    funext o c i j
    have hi := i.isLt
    have hj := j.isLt
    simp only [List.length_cons, List.length_nil, Nat.reduceAdd, Nat.reduceSub, List.drop_succ_cons,
      List.drop_zero, List.zipWith_cons_cons, List.zipWith_nil_left, if_true]
    have e1 : (if k = 1 then 0 else i.val) = i.val := by split <;> omega
    have e2 : (if k = 1 then 0 else j.val) = j.val := by split <;> omega
    rw [e1, e2]
    simp only [flatIdx, unflatIdx, List.prod_cons, List.prod_nil, mul_one, add_zero, Nat.zero_mul,
      Nat.zero_add, Nat.div_one, Nat.mod_one]
    rw [Nat.mul_comm i.val k, Nat.mul_add_div hk, Nat.div_eq_of_lt hj, Nat.add_zero,
      Nat.mul_add_mod, Nat.mod_eq_of_lt hj]

/-- Kernels given to `RxnDfn`. -/
theorem rxn_given_kernels (lap : Nat → Nat → α) (s : Kernels α 2 2) (t : Tensor α)
    (init : ∀ k, Fin 2 → Fin (2 / groups 2 2) → Fin k → Fin k → α) :
    ((s.addRxnNeighborhood lap (some t)).2 = .ok () ↔ ∃ a b k, t.shape = [a, b, k, k]) ∧
    ∀ a b k, t.shape = [a, b, k, k] →
      let s' := ((s.addRxnNeighborhood lap (some t)).1.initNb init)
      (s'.2 = .ok () ↔ a = 1 ∧ b = 1) ∧
      (a = 1 ∧ b = 1 → s'.1.nbLayer =
        some (.ofKernel 2 2 s.mode k fun i j => t.val [0, 0, i.val, j.val])) := by
  constructor
  · unfold Kernels.addRxnNeighborhood
    simp only [Option.getD_some]
    cases h : t.side with
    | error e =>
      simp only [reduceCtorEq, false_iff]
      rintro ⟨a, b, k, h'⟩
      rw [side_ok.2 ⟨a, b, h'⟩] at h
      cases h
    | ok d =>
      obtain ⟨a, b, h'⟩ := side_ok.1 h
      simp only [true_iff]
      exact ⟨a, b, d, h'⟩
  · intro a b k h
    have hs : (s.addRxnNeighborhood lap (some t)).1 =
        { s with nbKernel := some t.twice, nbDim := some k } := by
      unfold Kernels.addRxnNeighborhood
      simp only [Option.getD_some, side_ok.2 ⟨a, b, h⟩]
    have ht : t.twice.shape = [a + a, b, k, k] := by
      unfold Tensor.twice
      rw [h]
    have hfour : t.twice.toFour = .ok t.twice := by
      unfold Tensor.toFour
      rw [ht]
    obtain ⟨b1, b2⟩ := build_layer (ext := 2) (int := 2) (by decide) s.mode (init k) hfour
      (side_ok.2 ⟨_, _, ht⟩)
    have hF : Fitting 2 2 t.twice.shape k ↔ a = 1 ∧ b = 1 := by
      unfold Fitting
      rw [ht, show reads 2 2 = 1 from rfl]
      simp only [List.cons.injEq, and_true, reduceCtorEq, and_false, false_or]
      constructor
      · rintro ⟨x, y, ⟨rfl, rfl⟩, h1, h2⟩
        omega
      · rintro ⟨rfl, rfl⟩
        exact ⟨2, 1, ⟨rfl, rfl⟩, Or.inr rfl, Or.inl rfl⟩
    simp only [hs, Kernels.initNb]
    constructor
    · by_cases hc : a = 1 ∧ b = 1
      · rw [b1 (hF.2 hc)]
        simp [hc]
      · rw [b2 (fun x => hc (hF.1 x))]
        simp [hc]
    · rintro ⟨rfl, rfl⟩
      rw [b1 (hF.2 ⟨rfl, rfl⟩)]
      simp only [Option.some_or, ConvLayer.ofKernel]
      congr 2
      funext o c i j
      unfold entryFor
      rw [ht]
      unfold Tensor.twice
      rw [h]
      simp only [Nat.reduceAdd, OfNat.ofNat_ne_one, if_false, if_true]
      have ho := o.isLt
      rw [show (if o.val < 1 then o.val else o.val - 1) = 0 by split <;> omega]

/-- C102: `RxnDfn` takes kernels with four axes only, and can use them only if the first two have
length 1; both species then get the same kernel.  Without a kernel both get the nine-point
stencil, row by row. -/
theorem rxn_kernels (lap : Nat → Nat → α) (s : Kernels α 2 2) (t : Tensor α)
    (init : ∀ k, Fin 2 → Fin (2 / groups 2 2) → Fin k → Fin k → α) :
    ((s.addRxnNeighborhood lap (some t)).2 = .ok () ↔ ∃ a b k, t.shape = [a, b, k, k]) ∧
    (∀ a b k, t.shape = [a, b, k, k] →
      let s' := ((s.addRxnNeighborhood lap (some t)).1.initNb init)
      (s'.2 = .ok () ↔ a = 1 ∧ b = 1) ∧
      (a = 1 ∧ b = 1 → s'.1.nbLayer =
        some (.ofKernel 2 2 s.mode k fun i j => t.val [0, 0, i.val, j.val]))) ∧
    (s.addRxnNeighborhood lap none).2 = .ok () ∧
    ((s.addRxnNeighborhood lap none).1.initNb init).2 = .ok () ∧
    ((s.addRxnNeighborhood lap none).1.initNb init).1.nbLayer =
      some (.ofKernel 2 2 s.mode 3 fun i j => lap i.val j.val) := by
  obtain ⟨h1, h2⟩ := rxn_given_kernels lap s t init
  obtain ⟨h3, h4⟩ := rxn_given_kernels lap s (stencil lap) init
  have h5 := h4 1 1 3 rfl
  exact ⟨h1, h2, h3.2 ⟨1, 1, 3, rfl⟩, h5.1.2 ⟨rfl, rfl⟩, h5.2 ⟨rfl, rfl⟩⟩

/-! ## Examples -/

/-- One 3 by 3 kernel for each of 2 internal and 3 external channels. -/
def Witness.stack : Tensor Nat := ⟨[2, 3, 3, 3], fun idx => idx.sum⟩

example : Taken Witness.stack.shape 3 ∧ Fitting 3 2 Witness.stack.shape 3 ∧
    ¬ Fitting 1 1 Witness.stack.shape 3 := by
  refine ⟨Or.inr ⟨2, 3, rfl⟩, Or.inr ⟨2, 3, rfl, Or.inr rfl, Or.inr rfl⟩, ?_⟩
  rintro (h | ⟨a, b, h, h1, h2⟩)
  · cases h
  · simp only [Witness.stack, List.cons.injEq, and_true] at h
    obtain ⟨rfl, rfl⟩ := h
    simp at h1

example : (⟨[3, 3, 1], fun idx => idx.sum⟩ : Tensor Nat).shape = [3, 3, 1] ∧
    ((⟨.circular, none, some 3, none, none, none, none⟩ : Kernels Nat 1 1)).idDim = some 3 :=
  ⟨rfl, rfl⟩

end Yuca
