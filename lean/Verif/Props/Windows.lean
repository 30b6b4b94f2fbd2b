import Verif.Props.Locality

/-!
# The size of the torus does not matter (C101)

Two universes on tori of different sizes, anywhere in their batches, compared cell by cell.
Holds for lawless arithmetic, so also for rounded numbers as long as a cell is computed in the
same way on both tori.
-/

namespace Yuca

open Arith Spec

variable {α : Type} [Arith α] {ext int N N' H W H' W' : Nat}

namespace Spec

/-- Seen from cell `(i, j)` of `u` and from cell `(i', j')` of `v` everything within distance `r`
looks the same. -/
def SeesSame {C : Nat} (r : Nat) (u : Univ α N C H W) (v : Univ α N' C H' W')
    (m : Fin N) (i : Fin H) (j : Fin W) (m' : Fin N') (i' : Fin H') (j' : Fin W') : Prop :=
  ∀ a b : Int, |a| ≤ r → |b| ≤ r → ∀ c,
    u m c (rollIdx i a) (rollIdx j b) = v m' c (rollIdx i' a) (rollIdx j' b)

/-- `v` is `u` repeated, like tiles. -/
def Repeats {C : Nat} (u : Univ α N C H W) (v : Univ α N C H' W') : Prop :=
  H ∣ H' ∧ W ∣ W' ∧ ∀ m c (i : Fin H) (j : Fin W) (i' : Fin H') (j' : Fin W'),
    i'.val % H = i.val → j'.val % W = j.val → v m c i' j' = u m c i j

/-- A figure of `h` by `w` cells on a background. -/
structure Figure (α : Type) (C : Nat) where
  h : Nat
  w : Nat
  cells : Int → Int → Fin C → α
  bg : Fin C → α
  outside : ∀ (y x : Int) c, ¬ ((0 ≤ y ∧ y < h) ∧ 0 ≤ x ∧ x < w) → cells y x c = bg c

/-- The universe shows the figure with its upper left corner at `(a, b)`, and nothing else. -/
def Shows {C : Nat} (p : Figure α C) (u : Univ α N C H W) (a b : Int) : Prop :=
  ∀ m c (i : Fin H) (j : Fin W), u m c i j =
    p.cells (((i.val : Int) - a) % (H : Int)) (((j.val : Int) - b) % (W : Int)) c

/-- Cell `(i, j)` is `(y, x)` cells below and right of `(a, b)`. -/
def At (i : Fin H) (j : Fin W) (a b y x : Int) : Prop :=
  ((i.val : Int) - (a + y)) % (H : Int) = 0 ∧ ((j.val : Int) - (b + x)) % (W : Int) = 0

/-- Cell `(i, j)` is further than `r` from the figure at `(a, b)`. -/
def Far {C : Nat} (p : Figure α C) (r : Nat) (i : Fin H) (j : Fin W) (a b : Int) : Prop :=
  ∀ y x : Int, -r ≤ y → y < p.h + r → -r ≤ x → x < p.w + r → ¬ At i j a b y x

/-- Whatever is seen within distance `r` somewhere in one universe is also seen somewhere in the
other. -/
def Matched {C : Nat} (r : Nat) (u : Univ α N C H W) (v : Univ α N' C H' W') : Prop :=
  (∀ m i j, ∃ m' i' j', SeesSame r u v m i j m' i' j') ∧
  (∀ m' i' j', ∃ m i j, SeesSame r u v m i j m' i' j')

/-- Something that turns universes of any size into universes of the same size. -/
abbrev Runner (α : Type) (ext : Nat) :=
  ∀ {N H W : Nat}, Univ α N ext H W → Except PyErr (Univ α N ext H W)

/-- A cell of the result depends only on what is seen from it within distance `r`, not on the size
of the torus, its place there, or its number in the batch. -/
def Blind (f : Runner α ext) (r : Nat) : Prop :=
  ∀ {N N' H W H' W' : Nat} (u : Univ α N ext H W) (v : Univ α N' ext H' W') ru rv,
    f u = .ok ru → f v = .ok rv → ∀ m i j m' i' j', SeesSame r u v m i j m' i' j' →
      ∀ c, ru m c i j = rv m' c i' j'

/-- `n` steps, result only. -/
def stepped {σ : Type} (f : ∀ {N H W : Nat}, σ → Univ α N ext H W →
    Except PyErr (Univ α N ext H W × σ)) (n : Nat) (s : σ) : Runner α ext :=
  fun u => (iterate f n s u).map (·.1)

/-- One step of a `RandomStepCA` per draw, result only. -/
def drawn : List α → RandomStepCA α ext int → Runner α ext
  | [], _, _, _, _, u => .ok u
  | r :: rs, s, _, _, _, u => do
    let (u', s') ← s.forward r u
    drawn rs s' u'

/-- `n` steps of `CODE` with a loop budget per step, result only. -/
def coded (fuel : Nat) : Nat → CODE α ext int → Univ α N ext H W → Option (Univ α N ext H W)
  | 0, _, u => some u
  | n + 1, s, u =>
    match s.forward fuel u with
    | some (.ok (u', s')) => coded fuel n s' u'
    | _ => none

end Spec

section

variable {u : Univ α N ext H W} {v : Univ α N' ext H' W'} {m : Fin N} {i : Fin H} {j : Fin W}
  {m' : Fin N'} {i' : Fin H'} {j' : Fin W'} {r : Nat}

omit [Arith α] in
theorem Spec.SeesSame.at (h : SeesSame r u v m i j m' i' j') (a b : Int) (ha : |a| ≤ r) (hb : |b| ≤ r)
    (c : Fin ext) : u m c (cyc i a) (cyc j b) = v m' c (cyc i' a) (cyc j' b) := by
  have := h (-a) (-b) (by rwa [abs_neg]) (by rwa [abs_neg]) c
  simpa [rollIdx_eq_cyc] using this

omit [Arith α] in
theorem Spec.SeesSame.self (h : SeesSame r u v m i j m' i' j') (c : Fin ext) :
    u m c i j = v m' c i' j' := by
  have := h.at 0 0 (by simp) (by simp) c
  simpa [cyc_zero] using this

theorem Spec.SeesSame.mask (thr : α) (h : SeesSame r u v m i j m' i' j') :
    SeesSame r (maskIf thr u) (maskIf thr v) m i j m' i' j' := by
  intro a b ha hb c
  unfold maskIf
  split
  · simp only [aliveMask]
    rw [h a b ha hb c, h a b ha hb ⟨3, _⟩]
  · exact h a b ha hb c

theorem taps_alike {L : ConvLayer α ext int} (hm : L.mode = .circular) (hk : L.k % 2 = 1)
    (hR : L.pad ≤ r) (h : SeesSame r u v m i j m' i' j') (o : Fin int) :
    L.taps (u m) o i j = L.taps (v m') o i' j' := by
  rw [taps_circular L hm, taps_circular L hm]
  have hb : ∀ a : Fin L.k, |(a.val : Int) - L.pad| ≤ r := by
    intro a
    have := a.isLt
    have hp : L.pad = (L.k - 1) / 2 := rfl
    rw [abs_le]; constructor <;> omega
  congr 1; funext c
  congr 1; funext a
  congr 1; funext b
  rw [h.at _ _ (hb a) (hb b)]

omit [Arith α] in
theorem perChannel_alike {fns : List (α → α)} {x gx : Univ α N int H W} {y gy : Univ α N' int H' W'}
    (hx : perChannel fns x = .ok gx) (hy : perChannel fns y = .ok gy)
    (h : ∀ o, x m o i j = y m' o i' j') (o : Fin int) : gx m o i j = gy m' o i' j' := by
  unfold perChannel at hx hy
  split at hx
  · rename_i hl
    simp only [hl, dif_pos] at hy
    cases hx; cases hy; simp only [h]
  · cases hx

theorem conv1x1_alike {a b : Nat} (w : Fin b → Fin a → α) {x : Univ α N a H W}
    {y : Univ α N' a H' W'} (h : ∀ o, x m o i j = y m' o i' j') (e : Fin b) :
    conv1x1 w x m e i j = conv1x1 w y m' e i' j' := by
  simp only [conv1x1, h]

theorem weights_alike (l : Weights α ext int) {x : Univ α N int H W} {y : Univ α N' int H' W'}
    (h : ∀ o, x m o i j = y m' o i' j') (e : Fin ext) :
    l.apply x m e i j = l.apply y m' e i' j' := by
  cases l with
  | functional w => exact conv1x1_alike w h e
  | sequential w₁ w₂ =>
    simp only [Weights.apply]
    apply conv1x1_alike; intro o
    simp only [conv1x1_alike w₁ h o]

theorem updateUniverse_alike {ca : CCA α ext int} {ix nx : Univ α N int H W}
    {iy ny : Univ α N' int H' W'} {ux : Univ α N ext H W} {uy : Univ α N' ext H' W'}
    (hx : ca.updateUniverse ix nx = .ok ux) (hy : ca.updateUniverse iy ny = .ok uy)
    (h1 : ∀ o, ix m o i j = iy m' o i' j') (h2 : ∀ o, nx m o i j = ny m' o i' j') (e : Fin ext) :
    ux m e i j = uy m' e i' j' := by
  obtain ⟨gx, a1, hx⟩ := bind_ok hx
  obtain ⟨px, a2, hx⟩ := bind_ok hx
  obtain ⟨gy, b1, hy⟩ := bind_ok hy
  obtain ⟨py, b2, hy⟩ := bind_ok hy
  cases hx; cases hy
  apply weights_alike
  intro o
  simp only [h1, perChannel_alike a1 b1 h2, perChannel_alike a2 b2 h2]

theorem eulerClamp_alike {dt : α} {a : Univ α N ext H W} {b : Univ α N' ext H' W'}
    (h1 : ∀ c, u m c i j = v m' c i' j') (h2 : ∀ c, a m c i j = b m' c i' j') (c : Fin ext) :
    eulerClamp dt u a m c i j = eulerClamp dt v b m' c i' j' := by
  simp only [eulerClamp, h1, h2]

/-- The part all `CCA`s share. -/
theorem grid_alike {ca : CCA α ext int} (h1 : ca.idL.mode = .circular)
    (h2 : ca.nbL.mode = .circular) (hR1 : ca.idL.pad ≤ r) (hR2 : ca.nbL.pad ≤ r)
    {ix nx : Univ α N int H W} {iy ny : Univ α N' int H' W'} {ux : Univ α N ext H W}
    {uy : Univ α N' ext H' W'}
    (a1 : ca.idL.apply (maskIf ca.thr u) = .ok ix) (a2 : ca.nbL.apply (maskIf ca.thr u) = .ok nx)
    (b1 : ca.idL.apply (maskIf ca.thr v) = .ok iy) (b2 : ca.nbL.apply (maskIf ca.thr v) = .ok ny)
    (a3 : ca.updateUniverse ix nx = .ok ux) (b3 : ca.updateUniverse iy ny = .ok uy) (dt : α)
    (h : SeesSame r u v m i j m' i' j') (c : Fin ext) :
    eulerClamp dt (maskIf ca.thr u) ux m c i j = eulerClamp dt (maskIf ca.thr v) uy m' c i' j' := by
  have hmk := h.mask ca.thr
  obtain ⟨k1, a1⟩ := apply_ok a1
  obtain ⟨_, b1⟩ := apply_ok b1
  obtain ⟨k2, a2⟩ := apply_ok a2
  obtain ⟨_, b2⟩ := apply_ok b2
  subst a1 b1 a2 b2
  refine eulerClamp_alike (fun c => hmk.self c) (updateUniverse_alike a3 b3 ?_ ?_) c
  · intro o; simp only [taps_alike h1 k1 hR1 hmk o]
  · intro o; simp only [taps_alike h2 k2 hR2 hmk o]

omit [Arith α] in
theorem alike_ball {k R : Nat} (h : SeesSame (k + R) u v m i j m' i' j') (a b : Int) (ha : |a| ≤ k)
    (hb : |b| ≤ k) : SeesSame R u v m (cyc i a) (cyc j b) m' (cyc i' a) (cyc j' b) := by
  intro a' b' ha' hb' c
  simp only [rollIdx_eq_cyc, cyc_cyc]
  have h1 := abs_le.mp ha
  have h2 := abs_le.mp hb
  have h3 := abs_le.mp ha'
  have h4 := abs_le.mp hb'
  apply h.at <;> rw [abs_le] <;> push_cast <;> constructor <;> linarith

end

omit [Arith α] in
/-- Steps that are blind up to `R` and leave the same object behind can be iterated. -/
theorem iterate_blind {σ : Type} (f : ∀ {N H W : Nat}, σ → Univ α N ext H W →
      Except PyErr (Univ α N ext H W × σ)) (R : Nat) (P : σ → Prop)
    (hP : ∀ {N H W : Nat} s (b : Univ α N ext H W) b' s', P s → f s b = .ok (b', s') → P s')
    (hf : ∀ {N N' H W H' W' : Nat} s (u : Univ α N ext H W) (v : Univ α N' ext H' W') ru rv, P s →
      f s u = .ok ru → f s v = .ok rv → ru.2 = rv.2 ∧ ∀ m i j m' i' j',
        SeesSame R u v m i j m' i' j' → ∀ c, ru.1 m c i j = rv.1 m' c i' j') (n : Nat) :
    ∀ s, P s → Blind (stepped f n s) (n * R) := by
  have hmap : ∀ {β γ : Type} {x : Except PyErr (β × γ)} {y : β},
      x.map (·.1) = .ok y → ∃ z, x = .ok (y, z) := by
    intro β γ x y h
    cases x with
    | error e => cases h
    | ok p => cases h; exact ⟨p.2, rfl⟩
  induction n with
  | zero =>
    intro s _ N N' H W H' W' u v ru rv hu hv m i j m' i' j' h c
    cases hu; cases hv
    exact h.self c
  | succ n ih =>
    intro s hs N N' H W H' W' u v ru rv hu hv m i j m' i' j' h c
    obtain ⟨zu, hu⟩ := hmap hu
    obtain ⟨zv, hv⟩ := hmap hv
    obtain ⟨⟨u', s1⟩, hu1, hu2⟩ := bind_ok hu
    obtain ⟨⟨v', s2⟩, hv1, hv2⟩ := bind_ok hv
    obtain ⟨hst, hloc⟩ := hf s u v _ _ hs hu1 hv1
    simp only at hst hloc
    subst hst
    refine ih s1 (hP s u u' s1 hs hu1) u' v' ru rv ?_ ?_ m i j m' i' j' ?_ c
    · show (iterate f n s1 u').map (·.1) = _
      have : iterate f n s1 u' = .ok (ru, zu) := hu2
      rw [this]; rfl
    · show (iterate f n s1 v').map (·.1) = _
      have : iterate f n s1 v' = .ok (rv, zv) := hv2
      rw [this]; rfl
    · intro a b ha hb c'
      simp only [rollIdx_eq_cyc]
      refine hloc m _ _ m' _ _ ?_ c'
      rw [Nat.succ_mul] at h
      exact alike_ball h (-a) (-b) (by rwa [abs_neg]) (by rwa [abs_neg])

/-- C101: `n` steps of a `CCA` on the torus see nothing beyond distance `n R`. -/
theorem cca_blind (ca : CCA α ext int) (h1 : ca.idL.mode = .circular)
    (h2 : ca.nbL.mode = .circular) (R : Nat) (hR1 : ca.idL.pad ≤ R) (hR2 : ca.nbL.pad ≤ R)
    (n : Nat) : Blind (stepped CCA.forward n ca) (n * R) := by
  refine iterate_blind CCA.forward R (fun s => s.idL = ca.idL ∧ s.nbL = ca.nbL) ?_ ?_ n ca ⟨rfl, rfl⟩
  · intro N H W s b b' s' hs h
    obtain ⟨_, _, _, _, _, _, h⟩ := CCA.forward_ok h
    cases h; exact hs
  · rintro N N' H W H' W' s u v ru rv ⟨hi, hn⟩ hu hv
    obtain ⟨ix, nx, px, a1, a2, a3, rfl⟩ := CCA.forward_ok hu
    obtain ⟨iy, ny, py, b1, b2, b3, rfl⟩ := CCA.forward_ok hv
    refine ⟨rfl, fun m i j m' i' j' h c => ?_⟩
    exact grid_alike (by rw [hi]; exact h1) (by rw [hn]; exact h2) (by rw [hi]; exact hR1)
      (by rw [hn]; exact hR2) a1 a2 b1 b2 a3 b3 s.dt h c

/-- C101: the same for `Lenia`. -/
theorem lenia_blind (ca : CCA α ext int) (h2 : ca.nbL.mode = .circular) (R : Nat)
    (hR2 : ca.nbL.pad ≤ R) (n : Nat) : Blind (stepped CCA.leniaForward n ca) (n * R) := by
  refine iterate_blind CCA.leniaForward R (fun s => s.nbL = ca.nbL) ?_ ?_ n ca rfl
  · intro N H W s b b' s' hs h
    obtain ⟨_, _, _, _, _, _, h⟩ := CCA.leniaForward_ok h
    cases h; exact hs
  · rintro N N' H W H' W' s u v ru rv hn hu hv
    obtain ⟨ix, nx, px, a1, a2, a3, rfl⟩ := CCA.leniaForward_ok hu
    obtain ⟨iy, ny, py, b1, b2, b3, rfl⟩ := CCA.leniaForward_ok hv
    refine ⟨rfl, fun m i j m' i' j' h c => ?_⟩
    have hmk := h.mask s.thr
    rw [hn] at a2 b2
    obtain ⟨k2, a2⟩ := apply_ok a2
    obtain ⟨_, b2⟩ := apply_ok b2
    subst a2 b2
    refine eulerClamp_alike (fun c => hmk.self c) ?_ c
    obtain ⟨gx, a1, hx⟩ := bind_ok a3
    obtain ⟨gy, b1, hy⟩ := bind_ok b3
    cases hx; cases hy
    intro c
    apply weights_alike
    exact perChannel_alike a1 b1 (fun o => by simp only [taps_alike h2 k2 hR2 hmk o])

/-- C101: the same for `RxnDfn`. -/
theorem rxn_blind (ca : RxnDfn α) (h1 : ca.idL.mode = .circular)
    (h2 : ca.nbL.mode = .circular) (R : Nat) (hR1 : ca.idL.pad ≤ R) (hR2 : ca.nbL.pad ≤ R)
    (n : Nat) : Blind (stepped RxnDfn.forward n ca) (n * R) := by
  refine iterate_blind RxnDfn.forward R (fun s => s.idL = ca.idL ∧ s.nbL = ca.nbL) ?_ ?_ n ca
    ⟨rfl, rfl⟩
  · intro N H W s b b' s' hs h
    obtain ⟨_, _, _, _, h⟩ := RxnDfn.forward_ok h
    cases h; exact hs
  · rintro N N' H W H' W' s u v ru rv ⟨hi, hn⟩ hu hv
    obtain ⟨ix, nx, a1, a2, rfl⟩ := RxnDfn.forward_ok hu
    obtain ⟨iy, ny, b1, b2, rfl⟩ := RxnDfn.forward_ok hv
    refine ⟨rfl, fun m i j m' i' j' h c => ?_⟩
    rw [hi] at a1 b1; rw [hn] at a2 b2
    obtain ⟨k1, a1⟩ := apply_ok a1
    obtain ⟨_, b1⟩ := apply_ok b1
    obtain ⟨k2, a2⟩ := apply_ok a2
    obtain ⟨_, b2⟩ := apply_ok b2
    subst a1 b1 a2 b2
    refine eulerClamp_alike (fun c => h.self c) ?_ c
    intro c
    simp only [RxnDfn.updateUniverse, taps_alike h1 k1 hR1 h, taps_alike h2 k2 hR2 h]

/-- C101: the same for `NCA` in evaluation mode. -/
theorem nca_blind [Transc α] {hid : Nat} (ca : NCA α ext int hid) (h1 : ca.idL.mode = .circular)
    (h2 : ca.nbL.mode = .circular) (R : Nat) (hR1 : ca.idL.pad ≤ R) (hR2 : ca.nbL.pad ≤ R)
    (n : Nat) : Blind (stepped (fun s b => NCA.forward s none b) n ca) (n * R) := by
  refine iterate_blind (fun s b => NCA.forward s none b) R
    (fun s => s.idL = ca.idL ∧ s.nbL = ca.nbL) ?_ ?_ n ca ⟨rfl, rfl⟩
  · intro N H W s b b' s' hs h
    obtain ⟨_, _, _, _, _, _, h⟩ := NCA.forward_ok h
    cases h; exact hs
  · rintro N N' H W H' W' s u v ru rv ⟨hi, hn⟩ hu hv
    obtain ⟨ix, nx, px, a1, a2, a3, rfl⟩ := NCA.forward_ok hu
    obtain ⟨iy, ny, py, b1, b2, b3, rfl⟩ := NCA.forward_ok hv
    refine ⟨rfl, fun m i j m' i' j' h c => ?_⟩
    have hmk := h.mask s.thr
    rw [hi] at a1 b1; rw [hn] at a2 b2
    obtain ⟨k1, a1⟩ := apply_ok a1
    obtain ⟨_, b1⟩ := apply_ok b1
    obtain ⟨k2, a2⟩ := apply_ok a2
    obtain ⟨_, b2⟩ := apply_ok b2
    subst a1 b1 a2 b2
    refine eulerClamp_alike (fun c => hmk.self c) ?_ c
    unfold NCA.updateUniverse at a3 b3
    split at a3
    · rename_i hei
      simp only [hei, dif_pos] at b3
      cases a3; cases b3
      intro c
      simp only
      congr 1
      apply conv1x1_alike; intro o
      congr 1
      apply conv1x1_alike; intro o
      congr 1
      apply conv1x1_alike; intro o
      simp only [catChannels]
      refine Fin.addCases (fun o => ?_) (fun o => ?_) o
      · simp only [Fin.addCases_left, taps_alike h1 k1 hR1 hmk]
      · simp only [Fin.addCases_right, taps_alike h2 k2 hR2 hmk]
    · cases a3

/-- C101: the same for `RandomStepCA` with the same draws. -/
theorem drawn_blind (draws : List α) : ∀ (s : RandomStepCA α ext int), s.ca.idL.mode = .circular →
    s.ca.nbL.mode = .circular → ∀ R : Nat, s.ca.idL.pad ≤ R → s.ca.nbL.pad ≤ R →
    Blind (drawn draws s) (draws.length * R) := by
  induction draws with
  | nil =>
    intro s _ _ R _ _ N N' H W H' W' u v ru rv hu hv m i j m' i' j' h c
    cases hu; cases hv
    exact h.self c
  | cons r rs ih =>
    intro s h1 h2 R hR1 hR2 N N' H W H' W' u v ru rv hu hv m i j m' i' j' h c
    obtain ⟨⟨u', s1⟩, hu1, hu2⟩ := bind_ok hu
    obtain ⟨⟨v', s2⟩, hv1, hv2⟩ := bind_ok hv
    obtain ⟨ix, nx, px, a1, a2, a3, hu1⟩ := RandomStepCA.forward_ok hu1
    obtain ⟨iy, ny, py, b1, b2, b3, hv1⟩ := RandomStepCA.forward_ok hv1
    obtain ⟨eu, es⟩ := Prod.mk.inj hu1
    obtain ⟨ev, es'⟩ := Prod.mk.inj hv1
    obtain rfl : s1 = s2 := es.trans es'.symm
    have hc : s1.ca.idL = s.ca.idL ∧ s1.ca.nbL = s.ca.nbL := by rw [es]; exact ⟨rfl, rfl⟩
    refine ih s1 (by rw [hc.1]; exact h1) (by rw [hc.2]; exact h2) R (by rw [hc.1]; exact hR1)
      (by rw [hc.2]; exact hR2) u' v' ru rv hu2 hv2 m i j m' i' j' ?_ c
    intro a b ha hb c'
    simp only [rollIdx_eq_cyc]
    rw [List.length_cons, Nat.succ_mul] at h
    rw [eu, ev]
    exact grid_alike h1 h2 hR1 hR2 a1 a2 b1 b2 a3 b3 _
      (alike_ball h (-a) (-b) (by rwa [abs_neg]) (by rwa [abs_neg])) c'

/-! ## Tiles -/

omit [Arith α] in
theorem repeats_alike {u : Univ α N ext H W} {v : Univ α N ext H' W'} (h : Repeats u v) (r : Nat)
    (m : Fin N) {i : Fin H} {j : Fin W} {i' : Fin H'} {j' : Fin W'} (hi : i'.val % H = i.val)
    (hj : j'.val % W = j.val) : SeesSame r u v m i j m i' j' := by
  obtain ⟨hH, hW, h⟩ := h
  have key : ∀ {n n' : Nat} (k : Fin n) (k' : Fin n') (a : Int), n ∣ n' → k'.val % n = k.val →
      (rollIdx k' a).val % n = (rollIdx k a).val := by
    intro n n' k k' a hd hk
    have e1 := rollIdx_eq_cyc k a
    have e2 := rollIdx_eq_cyc k' a
    rw [e1, e2]
    have h1 := cyc_val k (-a)
    have h2 := cyc_val k' (-a)
    have h3 : (((cyc k' (-a)).val : Int) % n) = ((cyc k (-a)).val : Int) := by
      rw [h1, h2, Int.emod_emod_of_dvd _ (by exact_mod_cast hd), ← hk]
      push_cast
      rw [Int.emod_add_emod]
    exact_mod_cast h3
  intro a b _ _ c
  exact (h m c _ _ _ _ (key i i' a hH hi) (key j j' b hW hj)).symm

omit [Arith α] in
/-- C101: a universe of tiles stays one, and each tile evolves as it would alone, for ever. -/
theorem blind_repeats {f : Runner α ext} {r : Nat} (hf : Blind f r) {u ru : Univ α N ext H W}
    {v rv : Univ α N ext H' W'} (hu : f u = .ok ru) (hv : f v = .ok rv) (h : Repeats u v) :
    Repeats ru rv :=
  ⟨h.1, h.2.1, fun m c _ _ _ _ hi hj =>
    (hf u v ru rv hu hv m _ _ m _ _ (repeats_alike h r m hi hj) c).symm⟩

theorem newGrid_alike {s : CODE α ext int} (h1 : s.ca.idL.mode = .circular)
    (h2 : s.ca.nbL.mode = .circular) {R r : Nat} (hR1 : s.ca.idL.pad ≤ R) (hR2 : s.ca.nbL.pad ≤ R)
    {u ru : Univ α N ext H W} {v rv : Univ α N' ext H' W'} (dt : α)
    (hu : s.getNewGrid dt u = .ok ru) (hv : s.getNewGrid dt v = .ok rv) {m : Fin N} {i : Fin H}
    {j : Fin W} {m' : Fin N'} {i' : Fin H'} {j' : Fin W'} (h : SeesSame (r + R) u v m i j m' i' j') :
    SeesSame r ru rv m i j m' i' j' := by
  unfold CODE.getNewGrid at hu hv
  obtain ⟨ix, a1, hu⟩ := bind_ok hu
  obtain ⟨nx, a2, hu⟩ := bind_ok hu
  obtain ⟨px, a3, hu⟩ := bind_ok hu
  obtain ⟨iy, b1, hv⟩ := bind_ok hv
  obtain ⟨ny, b2, hv⟩ := bind_ok hv
  obtain ⟨py, b3, hv⟩ := bind_ok hv
  cases hu; cases hv
  intro a b ha hb c
  simp only [rollIdx_eq_cyc]
  exact grid_alike h1 h2 hR1 hR2 a1 a2 b1 b2 a3 b3 dt
    (alike_ball h (-a) (-b) (by rwa [abs_neg]) (by rwa [abs_neg])) c

omit [Arith α] in
theorem alike_mono {r r' : Nat} {u : Univ α N ext H W} {v : Univ α N' ext H' W'} {m : Fin N}
    {i : Fin H} {j : Fin W} {m' : Fin N'} {i' : Fin H'} {j' : Fin W'} (hr : r ≤ r')
    (h : SeesSame r' u v m i j m' i' j') : SeesSame r u v m i j m' i' j' := fun a b ha hb c =>
  h a b (ha.trans (by exact_mod_cast hr)) (hb.trans (by exact_mod_cast hr)) c

theorem accept_matched {s : CODE α ext int} (h1 : s.ca.idL.mode = .circular)
    (h2 : s.ca.nbL.mode = .circular) {R : Nat} (hR1 : s.ca.idL.pad ≤ R) (hR2 : s.ca.nbL.pad ≤ R)
    {u : Univ α N ext H W} {v : Univ α N' ext H' W'} (h : Matched (R + R) u v) (d : α) {a b : Bool}
    (hu : s.accept u d = .ok a) (hv : s.accept v d = .ok b) : a = b := by
  unfold CODE.accept at hu hv
  obtain ⟨bu, a1, hu⟩ := bind_ok hu
  obtain ⟨su, a2, hu⟩ := bind_ok hu
  obtain ⟨tu, a3, hu⟩ := bind_ok hu
  obtain ⟨bv, b1, hv⟩ := bind_ok hv
  obtain ⟨sv, b2, hv⟩ := bind_ok hv
  obtain ⟨tv, b3, hv⟩ := bind_ok hv
  cases hu; cases hv
  rw [decide_eq_decide]
  have key : ∀ m i j m' i' j', SeesSame (R + R) u v m i j m' i' j' → ∀ c,
      bu m c i j = bv m' c i' j' ∧ tu m c i j = tv m' c i' j' := by
    intro m i j m' i' j' ha c
    constructor
    · exact (newGrid_alike (r := R) h1 h2 hR1 hR2 d a1 b1 ha).self c
    · exact (newGrid_alike (r := 0) h1 h2 hR1 hR2 _ a3 b3
        (alike_mono (by omega) (newGrid_alike (r := R) h1 h2 hR1 hR2 _ a2 b2 ha))).self c
  constructor
  · intro hh m' c i' j'
    obtain ⟨m, i, j, ha⟩ := h.2 m' i' j'
    obtain ⟨e1, e2⟩ := key m i j m' i' j' ha c
    rw [← e1, ← e2]
    exact hh m c i j
  · intro hh m c i j
    obtain ⟨m', i', j', ha⟩ := h.1 m i j
    obtain ⟨e1, e2⟩ := key m i j m' i' j' ha c
    rw [e1, e2]
    exact hh m' c i' j'

theorem adaptLoop_same {mn : α} {acc acc' : α → Except PyErr Bool}
    (hacc : ∀ d a b, acc d = .ok a → acc' d = .ok b → a = b) (fuel : Nat) :
    ∀ (d : α) (t k k' : Bool) (x x' : α) (y y' : Bool), adaptLoop mn acc fuel d t = .done k x y →
      adaptLoop mn acc' fuel d t = .done k' x' y' → k = k' ∧ x = x' := by
  induction fuel with
  | zero => intro d t k k' x x' y y' h; cases h
  | succ fuel ih =>
    intro d t k k' x x' y y' h h'
    rw [adaptLoop] at h h'
    split at h
    · rename_i hle
      rw [if_pos hle] at h'
      cases ha : acc d with
      | error e => rw [ha] at h; cases h
      | ok a =>
        cases hb : acc' d with
        | error e => rw [hb] at h'; cases h'
        | ok b =>
          have := hacc d a b ha hb
          subst this
          rw [ha] at h
          rw [hb] at h'
          cases a with
          | true => cases h; cases h'; exact ⟨rfl, rfl⟩
          | false => exact ih _ _ _ _ _ _ _ _ h h'
    · rename_i hle
      rw [if_neg hle] at h'
      cases h; cases h'; exact ⟨rfl, rfl⟩

/-- C101: `CODE` chooses its step for the whole universe at once.  On two universes in which the
same sights occur it chooses the same steps, and then cells that see the same become the same. -/
theorem coded_matched (fuel : Nat) (n : Nat) : ∀ (s : CODE α ext int), s.ca.idL.mode = .circular →
    s.ca.nbL.mode = .circular → ∀ R : Nat, s.ca.idL.pad ≤ R → s.ca.nbL.pad ≤ R →
    ∀ {u ru : Univ α N ext H W} {v rv : Univ α N' ext H' W'},
    coded fuel n s u = some ru → coded fuel n s v = some rv → Matched ((n + 1) * R) u v →
    ∀ m i j m' i' j', SeesSame ((n + 1) * R) u v m i j m' i' j' →
      ∀ c, ru m c i j = rv m' c i' j' := by
  induction n with
  | zero =>
    intro s _ _ R _ _ u ru v rv hu hv _ m i j m' i' j' h c
    cases hu; cases hv
    exact h.self c
  | succ n ih =>
    intro s h1 h2 R hR1 hR2 u ru v rv hu hv hM m i j m' i' j' h c
    unfold coded at hu hv
    cases hfu : s.forward fuel u with
    | none => rw [hfu] at hu; cases hu
    | some eu =>
      cases eu with
      | error e => rw [hfu] at hu; cases hu
      | ok pu =>
        cases hfv : s.forward fuel v with
        | none => rw [hfv] at hv; cases hv
        | some ev =>
          cases ev with
          | error e => rw [hfv] at hv; cases hv
          | ok pv =>
            rw [hfu] at hu
            rw [hfv] at hv
            have e1 : (n + 1 + 1) * R = (n + 1) * R + R := Nat.succ_mul _ _
            have e2 : R + R ≤ (n + 1 + 1) * R := by
              rw [e1, Nat.succ_mul n R]; omega
            have hM2 : Matched (R + R) u v :=
              ⟨fun m i j => let ⟨m', i', j', h⟩ := hM.1 m i j; ⟨m', i', j', alike_mono e2 h⟩,
               fun m i j => let ⟨m', i', j', h⟩ := hM.2 m i j; ⟨m', i', j', alike_mono e2 h⟩⟩
            obtain ⟨k, x, c1, c2, c3⟩ := CODE.forward_ok hfu
            obtain ⟨k', x', d1, d2, d3⟩ := CODE.forward_ok hfv
            obtain ⟨rfl, rfl⟩ := adaptLoop_same
              (fun d a b ha hb => accept_matched h1 h2 hR1 hR2 hM2 d ha hb) fuel _ _ _ _ _ _ _ _ c1 d1
            rw [e1] at hM h
            have hst : pu.2 = pv.2 := by rw [c3, d3]
            obtain ⟨u', s'⟩ := pu
            obtain ⟨v', s''⟩ := pv
            simp only at hst c2 d2 c3
            subst hst
            have hca : s'.ca.idL = s.ca.idL ∧ s'.ca.nbL = s.ca.nbL := by rw [c3]; exact ⟨rfl, rfl⟩
            refine ih s' (by rw [hca.1]; exact h1) (by rw [hca.2]; exact h2) R
              (by rw [hca.1]; exact hR1) (by rw [hca.2]; exact hR2) hu hv ⟨fun m i j => ?_,
                fun m' i' j' => ?_⟩ m i j m' i' j' (newGrid_alike h1 h2 hR1 hR2 _ c2 d2 h) c
            · obtain ⟨m', i', j', h⟩ := hM.1 m i j
              exact ⟨m', i', j', newGrid_alike h1 h2 hR1 hR2 _ c2 d2 h⟩
            · obtain ⟨m, i, j, h⟩ := hM.2 m' i' j'
              exact ⟨m, i, j, newGrid_alike h1 h2 hR1 hR2 _ c2 d2 h⟩

omit [Arith α] in
theorem repeats_matched {u : Univ α N ext H W} {v : Univ α N ext H' W'} (h : Repeats u v) (r : Nat)
    (hpos : 0 < H' ∧ 0 < W') : Matched r u v := by
  have hH := Nat.le_of_dvd hpos.1 h.1
  have hW := Nat.le_of_dvd hpos.2 h.2.1
  have hH0 : 0 < H := Nat.pos_of_dvd_of_pos h.1 hpos.1
  have hW0 : 0 < W := Nat.pos_of_dvd_of_pos h.2.1 hpos.2
  constructor
  · intro m i j
    exact ⟨m, ⟨i.val, by omega⟩, ⟨j.val, by omega⟩, repeats_alike h r m (Nat.mod_eq_of_lt i.isLt)
      (Nat.mod_eq_of_lt j.isLt)⟩
  · intro m i' j'
    exact ⟨m, ⟨i'.val % H, Nat.mod_lt _ hH0⟩, ⟨j'.val % W, Nat.mod_lt _ hW0⟩,
      repeats_alike h r m rfl rfl⟩

/-- C101: `CODE` too treats each tile as if it were alone. -/
theorem coded_repeats (fuel : Nat) (n : Nat) (s : CODE α ext int) (h1 : s.ca.idL.mode = .circular)
    (h2 : s.ca.nbL.mode = .circular) {u ru : Univ α N ext H W} {v rv : Univ α N ext H' W'}
    (hpos : 0 < H' ∧ 0 < W') (hu : coded fuel n s u = some ru) (hv : coded fuel n s v = some rv)
    (h : Repeats u v) : Repeats ru rv :=
  ⟨h.1, h.2.1, fun m c _ _ _ _ hi hj => (coded_matched fuel n s h1 h2
    (max s.ca.idL.pad s.ca.nbL.pad) (le_max_left _ _) (le_max_right _ _) hu hv
    (repeats_matched h _ hpos) m _ _ m _ _ (repeats_alike h _ m hi hj) c).symm⟩

/-- C101: `n` steps of a `MetaCA` after `reset` see nothing beyond distance `n R`. -/
theorem meta_alike (R : Nat) (n : Nat) : ∀ (s s' : MetaCA α ext int), s.ca = s'.ca → s.ddt = s'.ddt →
    s.ca.idL.mode = .circular → s.ca.nbL.mode = .circular → s.ca.idL.pad ≤ R → s.ca.nbL.pad ≤ R →
    ∀ {u : Univ α N ext H W} {v : Univ α N' ext H' W'} {ru rv},
    iterate MetaCA.forward n s u = .ok ru → iterate MetaCA.forward n s' v = .ok rv →
    ∀ m i j m' i' j', SeesSame (n * R) u v m i j m' i' j' →
      SeesSame (n * R) (Momentum.forShape s.dgrid N H W) (Momentum.forShape s'.dgrid N' H' W')
        m i j m' i' j' → ∀ c, ru.1 m c i j = rv.1 m' c i' j' := by
  induction n with
  | zero =>
    intro s s' _ _ _ _ _ _ u v ru rv hu hv m i j m' i' j' h _ c
    cases hu; cases hv
    exact h.self c
  | succ n ih =>
    intro s s' hca hddt h1 h2 hR1 hR2 u v ru rv hu hv m i j m' i' j' h hd c
    obtain ⟨⟨u', s1⟩, hu1, hu2⟩ := bind_ok hu
    obtain ⟨⟨v', s2⟩, hv1, hv2⟩ := bind_ok hv
    obtain ⟨ix, nx, px, a1, a2, a3, du, edu, hu1⟩ := MetaCA.forward_ok hu1
    obtain ⟨iy, ny, py, b1, b2, b3, dv, edv, hv1⟩ := MetaCA.forward_ok hv1
    obtain ⟨eu, es⟩ := Prod.mk.inj hu1
    obtain ⟨ev, es'⟩ := Prod.mk.inj hv1
    rw [← hca] at b1 b2 b3 ev
    rw [← hddt] at edv
    rw [Nat.succ_mul] at h hd
    have c1 : s1.ca = s.ca := by rw [es]
    have c2 : s2.ca = s.ca := by rw [es']; exact hca.symm
    have hupd : ∀ a b : Int, |a| ≤ (n * R : Nat) → |b| ≤ (n * R : Nat) → ∀ c,
        du m c (cyc i a) (cyc j b) = dv m' c (cyc i' a) (cyc j' b) := by
      intro a b ha hb c'
      have hal := alike_ball h a b ha hb
      have hmk := hal.mask s.ca.thr
      obtain ⟨k1, a1⟩ := apply_ok a1
      obtain ⟨_, b1⟩ := apply_ok b1
      obtain ⟨k2, a2⟩ := apply_ok a2
      obtain ⟨_, b2⟩ := apply_ok b2
      subst a1 b1 a2 b2
      rw [edu, edv]
      simp only
      rw [hd.at a b (ha.trans (by push_cast; linarith)) (hb.trans (by push_cast; linarith)) c']
      congr 2
      refine updateUniverse_alike a3 b3 ?_ ?_ c'
      · intro o; simp only [taps_alike h1 k1 hR1 hmk o]
      · intro o; simp only [taps_alike h2 k2 hR2 hmk o]
    refine ih s1 s2 (c1.trans c2.symm) (by rw [es, es']; exact hddt) (by rw [c1]; exact h1)
      (by rw [c1]; exact h2) (by rw [c1]; exact hR1) (by rw [c1]; exact hR2) hu2 hv2 m i j m' i' j'
      ?_ ?_ c
    · intro a b ha hb c'
      simp only [rollIdx_eq_cyc]
      rw [eu, ev]
      refine eulerClamp_alike (fun c => ?_) (fun c => ?_) c'
      · exact ((alike_ball h (-a) (-b) (by rwa [abs_neg]) (by rwa [abs_neg])).mask s.ca.thr).self c
      · exact hupd (-a) (-b) (by rwa [abs_neg]) (by rwa [abs_neg]) c
    · intro a b ha hb c'
      simp only [rollIdx_eq_cyc]
      rw [es, es']
      simp only [Momentum.forShape]
      exact hupd (-a) (-b) (by rwa [abs_neg]) (by rwa [abs_neg]) c'

theorem meta_blind (s : MetaCA α ext int) (h1 : s.ca.idL.mode = .circular)
    (h2 : s.ca.nbL.mode = .circular) (R : Nat) (hR1 : s.ca.idL.pad ≤ R) (hR2 : s.ca.nbL.pad ≤ R)
    (n : Nat) : Blind (stepped MetaCA.forward n s.reset) (n * R) := by
  intro N N' H W H' W' u v ru rv hu hv m i j m' i' j' h c
  have hmap : ∀ {β γ : Type} {x : Except PyErr (β × γ)} {y : β},
      x.map (·.1) = .ok y → ∃ z, x = .ok (y, z) := by
    intro β γ x y h
    cases x with
    | error e => cases h
    | ok p => cases h; exact ⟨p.2, rfl⟩
  obtain ⟨zu, hu⟩ := hmap hu
  obtain ⟨zv, hv⟩ := hmap hv
  exact meta_alike R n s.reset s.reset rfl rfl h1 h2 hR1 hR2 hu hv m i j m' i' j' h
    (fun _ _ _ _ _ => rfl) c

/-! ## Figures -/

section

variable {p : Figure α ext} {u : Univ α N ext H W} {v : Univ α N' ext H' W'} {a b a' b' : Int}

omit [Arith α] in
theorem shows_inside {r : Nat} (hs : Shows p u a b) (hH : p.h + r ≤ H) (hW : p.w + r ≤ W) {y x : Int}
    (hy : -(r : Int) ≤ y ∧ y < p.h + r) (hx : -(r : Int) ≤ x ∧ x < p.w + r) (m : Fin N)
    (c : Fin ext) {i : Fin H} {j : Fin W} (h : At i j a b y x) : u m c i j = p.cells y x c := by
  have key : ∀ {n s : Nat} (k : Fin n) (o z : Int), s + r ≤ n → -(r : Int) ≤ z → z < s + r →
      ((k.val : Int) - (o + z)) % (n : Int) = 0 →
      ((k.val : Int) - o) % (n : Int) = z ∨
        (z < 0 ∧ (s : Int) ≤ ((k.val : Int) - o) % (n : Int)) := by
    intro n s k o z hn h1 h2 h3
    have hn0 : 0 < (n : Int) := by have := k.isLt; omega
    have e : ((k.val : Int) - o) % (n : Int) = z % (n : Int) := by
      rw [Int.emod_eq_emod_iff_emod_sub_eq_zero, ← h3]
      congr 1; ring
    rw [e]
    rcases lt_or_ge z 0 with hz | hz
    · right
      refine ⟨hz, ?_⟩
      have : z % (n : Int) = z + n := by
        rw [← Int.add_emod_right, Int.emod_eq_of_lt (by omega) (by omega)]
      omega
    · left
      exact Int.emod_eq_of_lt hz (by omega)
  rw [hs m c i j]
  rcases key i a y hH hy.1 hy.2 h.1 with e1 | ⟨e1, e1'⟩
  · rcases key j b x hW hx.1 hx.2 h.2 with e2 | ⟨e2, e2'⟩
    · rw [e1, e2]
    · rw [p.outside (((i.val : Int) - a) % (H : Int)) (((j.val : Int) - b) % (W : Int)) c (by omega),
        p.outside y x c (by omega)]
  · rw [p.outside (((i.val : Int) - a) % (H : Int)) (((j.val : Int) - b) % (W : Int)) c (by omega),
      p.outside y x c (by omega)]

omit [Arith α] in
theorem at_cyc {y x : Int} {i : Fin H} {j : Fin W} (h : At i j a b y x) (d e : Int) :
    At (cyc i d) (cyc j e) a b (y + d) (x + e) := by
  have key : ∀ {n : Nat} (k : Fin n) (o z d : Int), ((k.val : Int) - (o + z)) % (n : Int) = 0 →
      (((cyc k d).val : Int) - (o + (z + d))) % (n : Int) = 0 := by
    intro n k o z d h
    rw [cyc_val, Int.emod_sub_emod, ← h]
    congr 1; ring
  exact ⟨key i a y d h.1, key j b x e h.2⟩

omit [Arith α] in
theorem figure_alike {r : Nat} (hu : Shows p u a b) (hv : Shows p v a' b')
    (hH : p.h + 2 * r ≤ H) (hW : p.w + 2 * r ≤ W) (hH' : p.h + 2 * r ≤ H')
    (hW' : p.w + 2 * r ≤ W') {y x : Int} (hy : -(r : Int) ≤ y ∧ y < p.h + r)
    (hx : -(r : Int) ≤ x ∧ x < p.w + r) (m : Fin N) {i : Fin H} {j : Fin W} (h : At i j a b y x)
    (m' : Fin N') {i' : Fin H'} {j' : Fin W'} (h' : At i' j' a' b' y x) :
    SeesSame r u v m i j m' i' j' := by
  intro d e hd he c
  rw [abs_le] at hd he
  simp only [rollIdx_eq_cyc]
  rw [shows_inside hu hH hW (y := y + -d) (x := x + -e) (by push_cast; omega) (by push_cast; omega)
      m c (at_cyc h _ _),
    shows_inside hv hH' hW' (y := y + -d) (x := x + -e) (by push_cast; omega) (by push_cast; omega)
      m' c (at_cyc h' _ _)]

omit [Arith α] in
theorem far_bg {r : Nat} (hu : Shows p u a b) {i : Fin H} {j : Fin W} (h : Far p r i j a b)
    (d e : Int) (hd : |d| ≤ r) (he : |e| ≤ r) (m : Fin N) (c : Fin ext) :
    u m c (cyc i d) (cyc j e) = p.bg c := by
  rw [hu m c]
  refine p.outside _ _ c fun hin => ?_
  rw [abs_le] at hd he
  refine h ((((cyc i d).val : Int) - a) % (H : Int) - d) ((((cyc j e).val : Int) - b) % (W : Int) - e)
    (by omega) (by omega) (by omega) (by omega) ?_
  have key : ∀ {n : Nat} (k : Fin n) (o d : Int),
      ((k.val : Int) - (o + ((((cyc k d).val : Int) - o) % (n : Int) - d))) % (n : Int) = 0 := by
    intro n k o d
    rw [cyc_val, Int.emod_sub_emod]
    rw [show (k.val : Int) - (o + (((k.val : Int) + d - o) % (n : Int) - d)) =
      ((k.val : Int) + d - o) - ((k.val : Int) + d - o) % (n : Int) by ring]
    rw [Int.sub_emod, Int.emod_emod_of_dvd _ (dvd_refl _), sub_self, Int.zero_emod]
  exact ⟨key i a d, key j b e⟩

omit [Arith α] in
/-- C101: a figure evolves in the same way on every torus that has room for it and for how far it
can have been noticed, wherever it is and whatever its number in the batch. -/
theorem blind_figure {f : Runner α ext} {r : Nat} (hf : Blind f r) (hu : Shows p u a b)
    (hv : Shows p v a' b') (hH : p.h + 2 * r ≤ H) (hW : p.w + 2 * r ≤ W)
    (hH' : p.h + 2 * r ≤ H') (hW' : p.w + 2 * r ≤ W') {ru : Univ α N ext H W}
    {rv : Univ α N' ext H' W'} (hru : f u = .ok ru) (hrv : f v = .ok rv) (m : Fin N) (m' : Fin N')
    (c : Fin ext) (i : Fin H) (j : Fin W) (i' : Fin H') (j' : Fin W') :
    (∀ y x : Int, -r ≤ y → y < p.h + r → -r ≤ x → x < p.w + r → At i j a b y x →
      At i' j' a' b' y x → ru m c i j = rv m' c i' j') ∧
    (Far p r i j a b → Far p r i' j' a' b' → ru m c i j = rv m' c i' j') := by
  refine ⟨fun y x h1 h2 h3 h4 h h' => ?_, fun h h' => ?_⟩
  · exact hf u v ru rv hru hrv m i j m' i' j'
      (figure_alike hu hv hH hW hH' hW' ⟨h1, h2⟩ ⟨h3, h4⟩ m h m' h') c
  · refine hf u v ru rv hru hrv m i j m' i' j' (fun d e hd he c => ?_) c
    simp only [rollIdx_eq_cyc]
    rw [far_bg hu h _ _ (by rwa [abs_neg]) (by rwa [abs_neg]),
      far_bg hv h' _ _ (by rwa [abs_neg]) (by rwa [abs_neg])]

omit [Arith α] in
/-- C101: cells too far away to have noticed the figure are what they would be without it. -/
theorem blind_background {f : Runner α ext} {r : Nat} (hf : Blind f r) (hu : Shows p u a b)
    (hv : ∀ m c i j, v m c i j = p.bg c) {ru : Univ α N ext H W} {rv : Univ α N' ext H' W'}
    (hru : f u = .ok ru) (hrv : f v = .ok rv) (m : Fin N) (m' : Fin N') (c : Fin ext) (i : Fin H)
    (j : Fin W) (i' : Fin H') (j' : Fin W') (h : Far p r i j a b) :
    ru m c i j = rv m' c i' j' := by
  refine hf u v ru rv hru hrv m i j m' i' j' (fun d e hd he c => ?_) c
  simp only [rollIdx_eq_cyc]
  rw [far_bg hu h _ _ (by rwa [abs_neg]) (by rwa [abs_neg]), hv]

omit [Arith α] in
theorem at_exists {n : Nat} (hn : 0 < n) (o z : Int) :
    ∃ k : Fin n, ((k.val : Int) - (o + z)) % (n : Int) = 0 := by
  refine ⟨cyc ⟨0, hn⟩ (o + z), ?_⟩
  rw [cyc_val, Int.emod_sub_emod]
  simp

omit [Arith α] in
theorem far_exists {r : Nat} (hH : p.h + 2 * r < H) (hW : 0 < W) :
    ∃ (i : Fin H) (j : Fin W), Far p r i j a b := by
  obtain ⟨i, hi⟩ := at_exists (n := H) (by omega) a (p.h + r)
  refine ⟨i, ⟨0, hW⟩, fun y x h1 h2 _ _ h => ?_⟩
  have h3 := h.1
  have h4 : ((p.h + r : Int) - y) % (H : Int) = 0 := by
    have : ((i.val : Int) - (a + y) - ((i.val : Int) - (a + (p.h + r)))) % (H : Int) = 0 := by
      rw [Int.sub_emod, h3, hi]; simp
    rw [← this]
    congr 1; ring
  rw [Int.emod_eq_of_lt (by omega) (by omega)] at h4
  omega

omit [Arith α] in
theorem figure_matched {r : Nat} (hu : Shows p u a b) (hv : Shows p v a' b')
    (hH : p.h + 2 * r < H) (hW : p.w + 2 * r ≤ W) (hH' : p.h + 2 * r < H')
    (hW' : p.w + 2 * r ≤ W') (hW0 : 0 < W ∧ 0 < W') (hN : 0 < N ∧ 0 < N') : Matched r u v := by
  classical
  have hfar : ∀ m m' (i : Fin H) (j : Fin W) (i' : Fin H') (j' : Fin W'), Far p r i j a b →
      Far p r i' j' a' b' → SeesSame r u v m i j m' i' j' := by
    intro m m' i j i' j' h h' d e hd he c
    simp only [rollIdx_eq_cyc]
    rw [far_bg hu h _ _ (by rwa [abs_neg]) (by rwa [abs_neg]),
      far_bg hv h' _ _ (by rwa [abs_neg]) (by rwa [abs_neg])]
  constructor
  · intro m i j
    by_cases h : Far p r i j a b
    · obtain ⟨i', j', h'⟩ := far_exists (p := p) (a := a') (b := b') hH' hW0.2
      exact ⟨⟨0, hN.2⟩, i', j', hfar m _ i j i' j' h h'⟩
    · unfold Far at h
      push Not at h
      obtain ⟨y, x, h1, h2, h3, h4, h⟩ := h
      obtain ⟨i', hi⟩ := at_exists (n := H') (by omega) a' y
      obtain ⟨j', hj⟩ := at_exists (n := W') hW0.2 b' x
      exact ⟨⟨0, hN.2⟩, i', j', figure_alike hu hv hH.le hW hH'.le hW' ⟨h1, h2⟩ ⟨h3, h4⟩ m h _
        ⟨hi, hj⟩⟩
  · intro m' i' j'
    by_cases h : Far p r i' j' a' b'
    · obtain ⟨i, j, h'⟩ := far_exists (p := p) (a := a) (b := b) hH hW0.1
      exact ⟨⟨0, hN.1⟩, i, j, hfar _ m' i j i' j' h' h⟩
    · unfold Far at h
      push Not at h
      obtain ⟨y, x, h1, h2, h3, h4, h⟩ := h
      obtain ⟨i, hi⟩ := at_exists (n := H) (by omega) a y
      obtain ⟨j, hj⟩ := at_exists (n := W) hW0.1 b x
      exact ⟨⟨0, hN.1⟩, i, j, figure_alike hu hv hH.le hW hH'.le hW' ⟨h1, h2⟩ ⟨h3, h4⟩ _ ⟨hi, hj⟩
        m' h⟩

/-- C101: `CODE` too treats a figure in the same way on every torus that has room for it, for one
step more, and for some background. -/
theorem coded_figure (fuel : Nat) (n : Nat) (s : CODE α ext int) (h1 : s.ca.idL.mode = .circular)
    (h2 : s.ca.nbL.mode = .circular) (R : Nat) (hR1 : s.ca.idL.pad ≤ R) (hR2 : s.ca.nbL.pad ≤ R)
    (hu : Shows p u a b) (hv : Shows p v a' b') (hH : p.h + 2 * ((n + 1) * R) < H)
    (hW : p.w + 2 * ((n + 1) * R) ≤ W) (hH' : p.h + 2 * ((n + 1) * R) < H')
    (hW' : p.w + 2 * ((n + 1) * R) ≤ W') {ru : Univ α N ext H W} {rv : Univ α N' ext H' W'}
    (hru : coded fuel n s u = some ru) (hrv : coded fuel n s v = some rv) (m : Fin N) (m' : Fin N')
    (c : Fin ext) (i : Fin H) (j : Fin W) (i' : Fin H') (j' : Fin W') :
    (∀ y x : Int, -((n + 1) * R : Nat) ≤ y → y < p.h + ((n + 1) * R : Nat) →
      -((n + 1) * R : Nat) ≤ x → x < p.w + ((n + 1) * R : Nat) → At i j a b y x →
      At i' j' a' b' y x → ru m c i j = rv m' c i' j') ∧
    (Far p ((n + 1) * R) i j a b → Far p ((n + 1) * R) i' j' a' b' →
      ru m c i j = rv m' c i' j') := by
  have hM := figure_matched hu hv hH hW hH' hW'
    ⟨Nat.lt_of_le_of_lt (Nat.zero_le _) j.isLt, Nat.lt_of_le_of_lt (Nat.zero_le _) j'.isLt⟩
    ⟨Nat.lt_of_le_of_lt (Nat.zero_le _) m.isLt, Nat.lt_of_le_of_lt (Nat.zero_le _) m'.isLt⟩
  refine ⟨fun y x g1 g2 g3 g4 h h' => ?_, fun h h' => ?_⟩
  · exact coded_matched fuel n s h1 h2 R hR1 hR2 hru hrv hM m i j m' i' j'
      (figure_alike hu hv hH.le hW hH'.le hW' ⟨g1, g2⟩ ⟨g3, g4⟩ m h m' h') c
  · refine coded_matched fuel n s h1 h2 R hR1 hR2 hru hrv hM m i j m' i' j' (fun d e hd he c => ?_) c
    simp only [rollIdx_eq_cyc]
    rw [far_bg hu h _ _ (by rwa [abs_neg]) (by rwa [abs_neg]),
      far_bg hv h' _ _ (by rwa [abs_neg]) (by rwa [abs_neg])]

end

/-! ## Examples -/

/-- Grows where there are neighbours. -/
def Witness.spreading : CCA ℚ 1 1 := { Witness.ca1 with
  nbL := Witness.mooreLayer 1 1
  genesis := [fun x => x]
  persistence := [fun x => x] }

/-- One live cell. -/
def Witness.dot : Figure ℚ 1 where
  h := 1
  w := 1
  cells := fun y x _ => if y = 0 ∧ x = 0 then 1 else 0
  bg := fun _ => 0
  outside := by
    intro y x c h
    rw [if_neg]
    rintro ⟨rfl, rfl⟩
    exact h ⟨⟨le_refl _, Int.one_pos⟩, le_refl _, Int.one_pos⟩

/-- The live cell at `(0, 0)` of a torus. -/
def Witness.dotOn (N H W : Nat) : Univ ℚ N 1 H W := fun _ _ i j => if i.val = 0 ∧ j.val = 0 then 1 else 0

theorem Witness.dotOn_shows (N H W : Nat) : Shows Witness.dot (Witness.dotOn N H W) 0 0 := by
  intro m c i j
  have hi : ((i.val : Int) - 0) % (H : Int) = i.val := by
    rw [sub_zero]; exact Int.emod_eq_of_lt (by omega) (by have := i.isLt; omega)
  have hj : ((j.val : Int) - 0) % (W : Int) = j.val := by
    rw [sub_zero]; exact Int.emod_eq_of_lt (by omega) (by have := j.isLt; omega)
  rw [hi, hj]
  simp [Witness.dotOn, Witness.dot]

/-- The hypotheses of the theorems about figures are met by one live cell for two steps on a 5 by 5
and on a 7 by 6 torus. -/
example : Blind (stepped CCA.forward 2 Witness.spreading) (2 * 1) ∧
    Shows Witness.dot (Witness.dotOn 1 5 5) 0 0 ∧ Shows Witness.dot (Witness.dotOn 2 7 6) 0 0 ∧
    Witness.dot.h + 2 * (2 * 1) ≤ 5 ∧ Witness.dot.w + 2 * (2 * 1) ≤ 5 ∧
    (∃ r, stepped CCA.forward 2 Witness.spreading (Witness.dotOn 1 5 5) = .ok r) ∧
    (∃ r, stepped CCA.forward 2 Witness.spreading (Witness.dotOn 2 7 6) = .ok r) :=
  ⟨cca_blind Witness.spreading rfl rfl 1 (by decide) (by decide) 2, Witness.dotOn_shows 1 5 5,
    Witness.dotOn_shows 2 7 6, by decide, by decide, ⟨_, rfl⟩, ⟨_, rfl⟩⟩

/-- Tiles: the 3 by 3 torus with one live cell, repeated. -/
example : Repeats (Witness.dotOn 1 3 3)
    (fun _ _ i j => if i.val % 3 = 0 ∧ j.val % 3 = 0 then 1 else 0 : Univ ℚ 1 1 6 9) := by
  refine ⟨by decide, by decide, fun m c i j i' j' hi hj => ?_⟩
  simp [Witness.dotOn, hi, hj]

/-- The other machines: `CODE` on one live cell and more background, `RxnDfn`, `NCA` and `MetaCA`. -/
example : (∃ r, coded 9 1 codeW (Witness.dotOn 1 6 6) = some r) ∧
    (∃ r, coded 9 1 codeW (Witness.dotOn 1 7 5) = some r) ∧
    Witness.dot.h + 2 * ((1 + 1) * 1) < 6 ∧ Witness.dot.w + 2 * ((1 + 1) * 1) ≤ 5 ∧
    codeW.ca.idL.mode = .circular ∧ codeW.ca.nbL.mode = .circular ∧
    codeW.ca.idL.pad ≤ 1 ∧ codeW.ca.nbL.pad ≤ 1 := by
  refine ⟨Option.isSome_iff_exists.1 (by decide +kernel), Option.isSome_iff_exists.1 (by decide +kernel),
    by decide, by decide, rfl, rfl, by decide, by decide⟩

example (n : Nat) : Blind (stepped RxnDfn.forward n Witness.rxn) (n * 1) :=
  rxn_blind Witness.rxn rfl rfl 1 (by decide) (by decide) n

example (n : Nat) (dt : ℚ) :
    Blind (stepped MetaCA.forward n (MetaCA.reset ⟨Witness.spreading, dt, none⟩)) (n * 1) :=
  meta_blind ⟨Witness.spreading, dt, none⟩ rfl rfl 1 (by change Witness.spreading.idL.pad ≤ 1; decide)
    (by change Witness.spreading.nbL.pad ≤ 1; decide) n

/-- C101: the room asked for is needed.  With one row and column less, a figure can behave
differently. -/
theorem figure_room_refuted : ∃ (ca : CCA ℚ 1 1) (p : Figure ℚ 1) (u : Univ ℚ 1 1 2 2)
    (v : Univ ℚ 1 1 3 3), Blind (stepped CCA.forward 1 ca) 1 ∧ Shows p u 0 0 ∧ Shows p v 0 0 ∧
    p.h + 2 * 1 = 2 + 1 ∧ p.w + 2 * 1 = 2 + 1 ∧
    ∃ ru rv, stepped CCA.forward 1 ca u = .ok ru ∧ stepped CCA.forward 1 ca v = .ok rv ∧
      ru 0 0 0 1 ≠ rv 0 0 0 1 := by
  refine ⟨Witness.spreading, Witness.dot, Witness.dotOn 1 2 2, Witness.dotOn 1 3 3,
    cca_blind Witness.spreading rfl rfl 1 (by decide) (by decide) 1,
    Witness.dotOn_shows 1 2 2, Witness.dotOn_shows 1 3 3, rfl, rfl, _, _, rfl, rfl, ?_⟩
  decide +kernel

/-- C101: with zeros around the grid the place matters, and so does the size. -/
theorem zeros_blind_refuted : ∃ ca : CCA ℚ 1 1, ca.idL.mode = .circular ∧ ca.nbL.mode = .zeros ∧
    ca.idL.pad ≤ 1 ∧ ca.nbL.pad ≤ 1 ∧ ¬ Blind (stepped CCA.forward 1 ca) (1 * 1) := by
  refine ⟨{ Witness.spreading with nbL := { Witness.mooreLayer 1 1 with mode := .zeros } }, rfl, rfl,
    by decide, by decide, fun h => ?_⟩
  have := h (fun _ _ _ _ => 1/2 : Univ ℚ 1 1 3 3) (fun _ _ _ _ => 1/2 : Univ ℚ 1 1 3 3) _ _ rfl rfl
    0 0 0 0 1 1 (fun _ _ _ _ _ => rfl) 0
  revert this
  decide +kernel

end Yuca
