import Verif.Props.Equivariance

/-!
# C03: locality and speed limit

A cell after `n` steps depends only on the start cells within torus Chebyshev
distance `n * R`, `R` being the larger kernel radius.  Holds for lawless arithmetic.
-/

namespace Yuca

open Arith Spec

variable {α : Type} [Arith α] {ext int N H W : Nat}

omit [Arith α] in
theorem Spec.AgreeNear.at {C : Nat} {r : Nat} {u v : Univ α N C H W} {m : Fin N} {i : Fin H}
    {j : Fin W} (h : AgreeNear r u v m i j) (a b : Int) (ha : |a| ≤ r) (hb : |b| ≤ r)
    (c : Fin C) : u m c (cyc i a) (cyc j b) = v m c (cyc i a) (cyc j b) := by
  have := h (-a) (-b) (by rwa [abs_neg]) (by rwa [abs_neg]) c
  simpa [rollIdx_eq_cyc] using this

omit [Arith α] in
theorem Spec.AgreeNear.self {C : Nat} {r : Nat} {u v : Univ α N C H W} {m : Fin N} {i : Fin H}
    {j : Fin W} (h : AgreeNear r u v m i j) (c : Fin C) : u m c i j = v m c i j := by
  have := h.at 0 0 (by simp) (by simp) c
  simpa [cyc_zero] using this

theorem Spec.AgreeNear.mask {r : Nat} {u v : Univ α N ext H W} {m : Fin N} {i : Fin H}
    {j : Fin W} (thr : α) (h : AgreeNear r u v m i j) :
    AgreeNear r (maskIf thr u) (maskIf thr v) m i j := by
  intro a b ha hb c
  unfold maskIf
  split
  · simp only [aliveMask]
    rw [h a b ha hb c, h a b ha hb ⟨3, _⟩]
  · exact h a b ha hb c

theorem apply_ok {L : ConvLayer α ext int} {u : Univ α N ext H W} {x : Univ α N int H W}
    (h : L.apply u = .ok x) :
    L.k % 2 = 1 ∧ x = fun n o i j => dot (L.taps (u n) o i j) := by
  unfold ConvLayer.apply at h
  split at h
  · rename_i hc; exact ⟨hc.1, by cases h; rfl⟩
  · cases h

theorem taps_congr {L : ConvLayer α ext int} (hm : L.mode = .circular) (hk : L.k % 2 = 1)
    {R : Nat} (hR : L.pad ≤ R) {u v : Univ α N ext H W} {m : Fin N} {i : Fin H} {j : Fin W}
    (h : AgreeNear R u v m i j) (o : Fin int) :
    L.taps (u m) o i j = L.taps (v m) o i j := by
  rw [taps_circular L hm, taps_circular L hm]
  have hb : ∀ a : Fin L.k, |(a.val : Int) - L.pad| ≤ R := by
    intro a
    have := a.isLt
    have hp : L.pad = (L.k - 1) / 2 := rfl
    rw [abs_le]; constructor <;> omega
  congr 1; funext c
  congr 1; funext a
  congr 1; funext b
  rw [h.at _ _ (hb a) (hb b)]

/-- A step operator is local with radius `R`: if it returns on two universes,
the new automaton states are equal and the new cells depend on nothing beyond distance
`R`.  (That whether it returns does not depend on cell values either is
`cca_runs_iff` in `Verif/Props/Structure.lean`.) -/
def LocalStep {σ : Type} (f : σ → Univ α N ext H W → Except PyErr (Univ α N ext H W × σ))
    (R : Nat) (s : σ) : Prop :=
  ∀ u v ru rv, f s u = .ok ru → f s v = .ok rv → ru.2 = rv.2 ∧
    ∀ m i j, AgreeNear R u v m i j → ∀ c, ru.1 m c i j = rv.1 m c i j

omit [Arith α] in
theorem cyc_ball {C : Nat} {n R : Nat} {u v : Univ α N C H W} {m : Fin N} {i : Fin H} {j : Fin W}
    (h : AgreeNear (n * R + R) u v m i j) (a b : Int) (ha : |a| ≤ (n * R : Nat))
    (hb : |b| ≤ (n * R : Nat)) : AgreeNear R u v m (cyc i a) (cyc j b) := by
  intro a' b' ha' hb' c
  simp only [rollIdx_eq_cyc, cyc_cyc]
  have h1 := abs_le.mp ha
  have h2 := abs_le.mp hb
  have h3 := abs_le.mp ha'
  have h4 := abs_le.mp hb'
  apply h.at <;> rw [abs_le] <;> push_cast <;> push_cast at h1 h2 <;> constructor <;> linarith

omit [Arith α] in
theorem iterate_local {σ : Type}
    (f : σ → Univ α N ext H W → Except PyErr (Univ α N ext H W × σ)) (R : Nat)
    (P : σ → Prop) (hP : ∀ s b b' s', P s → f s b = .ok (b', s') → P s')
    (hf : ∀ s, P s → LocalStep f R s) (n : Nat) :
    ∀ s u v ru rv, P s → iterate f n s u = .ok ru → iterate f n s v = .ok rv →
      ∀ m i j, AgreeNear (n * R) u v m i j → ∀ c, ru.1 m c i j = rv.1 m c i j := by
  induction n with
  | zero =>
    intro s u v ru rv _ hu hv m i j h c
    cases hu; cases hv
    exact h.self c
  | succ n ih =>
    intro s u v ru rv hs hu hv m i j h c
    obtain ⟨⟨u', s1⟩, hu1, hu2⟩ := bind_ok hu
    obtain ⟨⟨v', s2⟩, hv1, hv2⟩ := bind_ok hv
    obtain ⟨hst, hloc⟩ := hf s hs u v _ _ hu1 hv1
    simp only at hst hloc
    subst hst
    refine ih s1 u' v' ru rv (hP s u u' s1 hs hu1) hu2 hv2 m i j ?_ c
    intro a b ha hb c'
    simp only [rollIdx_eq_cyc]
    refine hloc m _ _ ?_ c'
    rw [Nat.succ_mul] at h
    exact cyc_ball h (-a) (-b) (by rwa [abs_neg]) (by rwa [abs_neg])

omit [Arith α] in
theorem perChannel_congr {fns : List (α → α)} {x y gx gy : Univ α N int H W}
    (hx : perChannel fns x = .ok gx) (hy : perChannel fns y = .ok gy)
    {m : Fin N} {i : Fin H} {j : Fin W} (h : ∀ o, x m o i j = y m o i j) (o : Fin int) :
    gx m o i j = gy m o i j := by
  unfold perChannel at hx hy
  split at hx
  · rename_i hl
    simp only [hl, dif_pos] at hy
    cases hx; cases hy; simp only [h]
  · cases hx

theorem conv1x1_congr {a b : Nat} (w : Fin b → Fin a → α) {x y : Univ α N a H W}
    {m : Fin N} {i : Fin H} {j : Fin W} (h : ∀ o, x m o i j = y m o i j) (e : Fin b) :
    conv1x1 w x m e i j = conv1x1 w y m e i j := by
  simp only [conv1x1, h]

theorem weights_congr (l : Weights α ext int) {x y : Univ α N int H W}
    {m : Fin N} {i : Fin H} {j : Fin W} (h : ∀ o, x m o i j = y m o i j) (e : Fin ext) :
    l.apply x m e i j = l.apply y m e i j := by
  cases l with
  | functional w => exact conv1x1_congr w h e
  | sequential w₁ w₂ =>
    simp only [Weights.apply]
    apply conv1x1_congr; intro o
    simp only [conv1x1_congr w₁ h o]

theorem updateUniverse_congr {ca : CCA α ext int} {ix iy nx ny : Univ α N int H W}
    {ux uy : Univ α N ext H W} (hx : ca.updateUniverse ix nx = .ok ux)
    (hy : ca.updateUniverse iy ny = .ok uy) {m : Fin N} {i : Fin H} {j : Fin W}
    (h1 : ∀ o, ix m o i j = iy m o i j) (h2 : ∀ o, nx m o i j = ny m o i j) (e : Fin ext) :
    ux m e i j = uy m e i j := by
  obtain ⟨gx, a1, hx⟩ := bind_ok hx
  obtain ⟨px, a2, hx⟩ := bind_ok hx
  obtain ⟨gy, b1, hy⟩ := bind_ok hy
  obtain ⟨py, b2, hy⟩ := bind_ok hy
  cases hx; cases hy
  apply weights_congr
  intro o
  simp only [h1, perChannel_congr a1 b1 h2, perChannel_congr a2 b2 h2]

theorem eulerClamp_congr {dt : α} {u v a b : Univ α N ext H W} {m : Fin N} {i : Fin H}
    {j : Fin W} (h1 : ∀ c, u m c i j = v m c i j) (h2 : ∀ c, a m c i j = b m c i j)
    (c : Fin ext) : eulerClamp dt u a m c i j = eulerClamp dt v b m c i j := by
  simp only [eulerClamp, h1, h2]

/-- C03 for `CCA`. -/
theorem cca_local (ca : CCA α ext int) (h1 : ca.idL.mode = .circular)
    (h2 : ca.nbL.mode = .circular) (R : Nat) (hR1 : ca.idL.pad ≤ R) (hR2 : ca.nbL.pad ≤ R)
    (n : Nat) (u v : Univ α N ext H W) (ru rv : Univ α N ext H W × CCA α ext int)
    (hu : iterate CCA.forward n ca u = .ok ru) (hv : iterate CCA.forward n ca v = .ok rv)
    (m : Fin N) (i : Fin H) (j : Fin W) (h : AgreeNear (n * R) u v m i j) (c : Fin ext) :
    ru.1 m c i j = rv.1 m c i j := by
  refine iterate_local CCA.forward R (fun s => s.idL = ca.idL ∧ s.nbL = ca.nbL)
    ?_ ?_ n ca u v ru rv ⟨rfl, rfl⟩ hu hv m i j h c
  · intro s b b' s' hs h
    obtain ⟨_, _, _, _, _, _, h⟩ := CCA.forward_ok h
    cases h; exact hs
  · rintro s ⟨hi, hn⟩ u v ru rv hu hv
    obtain ⟨ix, nx, px, a1, a2, a3, rfl⟩ := CCA.forward_ok hu
    obtain ⟨iy, ny, py, b1, b2, b3, rfl⟩ := CCA.forward_ok hv
    refine ⟨rfl, fun m i j h c => ?_⟩
    have hmk := h.mask s.thr
    rw [hi] at a1 b1; rw [hn] at a2 b2
    obtain ⟨k1, a1⟩ := apply_ok a1
    obtain ⟨_, b1⟩ := apply_ok b1
    obtain ⟨k2, a2⟩ := apply_ok a2
    obtain ⟨_, b2⟩ := apply_ok b2
    subst a1 b1 a2 b2
    refine eulerClamp_congr (fun c => hmk.self c) (updateUniverse_congr a3 b3 ?_ ?_) c
    · intro o; simp only [taps_congr h1 k1 hR1 hmk o]
    · intro o; simp only [taps_congr h2 k2 hR2 hmk o]

/-- C03 for `Lenia`. -/
theorem lenia_local (ca : CCA α ext int) (h2 : ca.nbL.mode = .circular) (R : Nat)
    (hR2 : ca.nbL.pad ≤ R)
    (n : Nat) (u v : Univ α N ext H W) (ru rv : Univ α N ext H W × CCA α ext int)
    (hu : iterate CCA.leniaForward n ca u = .ok ru)
    (hv : iterate CCA.leniaForward n ca v = .ok rv)
    (m : Fin N) (i : Fin H) (j : Fin W) (h : AgreeNear (n * R) u v m i j) (c : Fin ext) :
    ru.1 m c i j = rv.1 m c i j := by
  refine iterate_local CCA.leniaForward R (fun s => s.nbL = ca.nbL)
    ?_ ?_ n ca u v ru rv rfl hu hv m i j h c
  · intro s b b' s' hs h
    obtain ⟨_, _, _, _, _, _, h⟩ := CCA.leniaForward_ok h
    cases h; exact hs
  · rintro s hn u v ru rv hu hv
    obtain ⟨ix, nx, px, a1, a2, a3, rfl⟩ := CCA.leniaForward_ok hu
    obtain ⟨iy, ny, py, b1, b2, b3, rfl⟩ := CCA.leniaForward_ok hv
    refine ⟨rfl, fun m i j h c => ?_⟩
    have hmk := h.mask s.thr
    rw [hn] at a2 b2
    obtain ⟨k2, a2⟩ := apply_ok a2
    obtain ⟨_, b2⟩ := apply_ok b2
    subst a2 b2
    refine eulerClamp_congr (fun c => hmk.self c) ?_ c
    obtain ⟨gx, a1, hx⟩ := bind_ok a3
    obtain ⟨gy, b1, hy⟩ := bind_ok b3
    cases hx; cases hy
    intro c
    apply weights_congr
    exact perChannel_congr a1 b1 (fun o => by simp only [taps_congr h2 k2 hR2 hmk o])

/-- C03 for `RxnDfn`. -/
theorem rxn_local (ca : RxnDfn α) (h1 : ca.idL.mode = .circular)
    (h2 : ca.nbL.mode = .circular) (R : Nat) (hR1 : ca.idL.pad ≤ R) (hR2 : ca.nbL.pad ≤ R)
    (n : Nat) (u v : Univ α N 2 H W) (ru rv : Univ α N 2 H W × RxnDfn α)
    (hu : iterate RxnDfn.forward n ca u = .ok ru) (hv : iterate RxnDfn.forward n ca v = .ok rv)
    (m : Fin N) (i : Fin H) (j : Fin W) (h : AgreeNear (n * R) u v m i j) (c : Fin 2) :
    ru.1 m c i j = rv.1 m c i j := by
  refine iterate_local RxnDfn.forward R (fun s => s.idL = ca.idL ∧ s.nbL = ca.nbL)
    ?_ ?_ n ca u v ru rv ⟨rfl, rfl⟩ hu hv m i j h c
  · intro s b b' s' hs h
    obtain ⟨_, _, _, _, h⟩ := RxnDfn.forward_ok h
    cases h; exact hs
  · rintro s ⟨hi, hn⟩ u v ru rv hu hv
    obtain ⟨ix, nx, a1, a2, rfl⟩ := RxnDfn.forward_ok hu
    obtain ⟨iy, ny, b1, b2, rfl⟩ := RxnDfn.forward_ok hv
    refine ⟨rfl, fun m i j h c => ?_⟩
    rw [hi] at a1 b1; rw [hn] at a2 b2
    obtain ⟨k1, a1⟩ := apply_ok a1
    obtain ⟨_, b1⟩ := apply_ok b1
    obtain ⟨k2, a2⟩ := apply_ok a2
    obtain ⟨_, b2⟩ := apply_ok b2
    subst a1 b1 a2 b2
    refine eulerClamp_congr (fun c => h.self c) ?_ c
    intro c
    simp only [RxnDfn.updateUniverse, taps_congr h1 k1 hR1 h, taps_congr h2 k2 hR2 h]

/-- C03 for `NCA` in evaluation mode. -/
theorem nca_local [Transc α] {hid : Nat} (ca : NCA α ext int hid) (h1 : ca.idL.mode = .circular)
    (h2 : ca.nbL.mode = .circular) (R : Nat) (hR1 : ca.idL.pad ≤ R) (hR2 : ca.nbL.pad ≤ R)
    (n : Nat) (u v : Univ α N ext H W) (ru rv : Univ α N ext H W × NCA α ext int hid)
    (hu : iterate (fun s b => NCA.forward s none b) n ca u = .ok ru)
    (hv : iterate (fun s b => NCA.forward s none b) n ca v = .ok rv)
    (m : Fin N) (i : Fin H) (j : Fin W) (h : AgreeNear (n * R) u v m i j) (c : Fin ext) :
    ru.1 m c i j = rv.1 m c i j := by
  refine iterate_local (fun s b => NCA.forward s none b) R
    (fun s => s.idL = ca.idL ∧ s.nbL = ca.nbL) ?_ ?_ n ca u v ru rv ⟨rfl, rfl⟩ hu hv m i j h c
  · intro s b b' s' hs h
    obtain ⟨_, _, _, _, _, _, h⟩ := NCA.forward_ok h
    cases h; exact hs
  · rintro s ⟨hi, hn⟩ u v ru rv hu hv
    obtain ⟨ix, nx, px, a1, a2, a3, rfl⟩ := NCA.forward_ok hu
    obtain ⟨iy, ny, py, b1, b2, b3, rfl⟩ := NCA.forward_ok hv
    refine ⟨rfl, fun m i j h c => ?_⟩
    have hmk := h.mask s.thr
    rw [hi] at a1 b1; rw [hn] at a2 b2
    obtain ⟨k1, a1⟩ := apply_ok a1
    obtain ⟨_, b1⟩ := apply_ok b1
    obtain ⟨k2, a2⟩ := apply_ok a2
    obtain ⟨_, b2⟩ := apply_ok b2
    subst a1 b1 a2 b2
    refine eulerClamp_congr (fun c => hmk.self c) ?_ c
    unfold NCA.updateUniverse at a3 b3
    split at a3
    · rename_i hei
      simp only [hei, dif_pos] at b3
      cases a3; cases b3
      intro c
      simp only
      congr 1
      apply conv1x1_congr; intro o
      congr 1
      apply conv1x1_congr; intro o
      congr 1
      apply conv1x1_congr; intro o
      simp only [catChannels]
      refine Fin.addCases (fun o => ?_) (fun o => ?_) o
      · simp only [Fin.addCases_left, taps_congr h1 k1 hR1 hmk]
      · simp only [Fin.addCases_right, taps_congr h2 k2 hR2 hmk]
    · cases a3

/-- The hypotheses of `cca_local` are met non-trivially: on a 7x7 torus the witness
automaton runs two steps, and two different universes agree within distance 2. -/
example : Witness.ca1.idL.pad ≤ 1 ∧ Witness.ca1.nbL.pad ≤ 1 ∧
    (∃ r, iterate CCA.forward 2 Witness.ca1 (fun _ _ i _ => (i.val : ℚ) / 7 : Univ ℚ 1 1 7 7)
      = .ok r) ∧
    AgreeNear (2 * 1) (fun _ _ i _ => (i.val : ℚ) / 7 : Univ ℚ 1 1 7 7)
      (fun _ _ i _ => if i = 6 then 0 else (i.val : ℚ) / 7) 0 3 3 := by
  refine ⟨by decide, by decide, ⟨_, rfl⟩, ?_⟩
  intro a b ha hb c
  have h1 := abs_le.mp ha
  have h2 : rollIdx (3 : Fin 7) a ≠ 6 := by
    intro h
    have := congrArg Fin.val h
    simp only [rollIdx] at this
    push_cast at h1
    omega
  simp [h2]

/-- A CODE automaton with 1x1 kernels whose growth is slow below 1/4 and steep above. -/
def codeL : CODE ℚ 1 1 := { codeW with ca := { codeW.ca with
    idL := ⟨1, .circular, fun _ _ _ _ => 1⟩
    genesis := [fun x => if x < 1/4 then 1/200 else x]
    persistence := [fun x => if x < 1/4 then 1/200 else x] } }

/-- C03 fails for `CODE`: two 1x2 universes that agree at cell 0 (kernel radius 0) have
different values there after one step, because the step size is chosen globally. -/
theorem code_local_refuted : ∃ (s : CODE ℚ 1 1) (u v : Univ ℚ 1 1 1 2) (fuel : Nat)
    (a b : _), s.ca.nbL.pad = 0 ∧ s.ca.idL.pad = 0 ∧
    s.forward fuel u = some (.ok a) ∧ s.forward fuel v = some (.ok b) ∧
    u 0 0 0 0 = v 0 0 0 0 ∧ a.1 0 0 0 0 ≠ b.1 0 0 0 0 := by
  have key : ∀ (u : Univ ℚ 1 1 1 2) (d : ℚ),
      (codeL.forward 40 u).map (fun r => r.toOption.map (fun r => r.1 0 0 0 0)) =
        some (some d) →
      ∃ a, codeL.forward 40 u = some (.ok a) ∧ a.1 0 0 0 0 = d := by
    intro u d h
    rcases hf : codeL.forward 40 u with _ | r
    · rw [hf] at h; simp at h
    · rw [hf] at h
      cases r with
      | error e => simp [Except.toOption] at h
      | ok r => exact ⟨r, rfl, by simpa [Except.toOption] using h⟩
  obtain ⟨a, ha, hda⟩ := key (fun _ _ _ _ => 1/8) (1/8 + 1/2 * (1/200)) (by decide +kernel)
  obtain ⟨b, hb, hdb⟩ := key (fun _ _ _ j => if j = 0 then 1/8 else 1/2)
    (1/8 + (1/2 * (3/4) * (3/4) * (3/4)) * (1/200)) (by decide +kernel)
  refine ⟨codeL, _, _, 40, a, b, rfl, rfl, ha, hb, rfl, ?_⟩
  rw [hda, hdb]; norm_num

/-- The two universes of that counterexample differ (at cell 1). -/
example : (fun _ _ _ _ => 1/8 : Univ ℚ 1 1 1 2) ≠ (fun _ _ _ j => if j = 0 then 1/8 else 1/2) := by
  intro h
  have := congrFun (congrFun (congrFun (congrFun h 0) 0) 0) 1
  norm_num at this

end Yuca
