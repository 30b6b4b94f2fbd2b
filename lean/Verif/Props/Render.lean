import Verif.Model.Render
import Verif.Props.Frames
import Verif.Props.Life

/-!
# C91: what the pictures of `save_fig_sequence` show
-/

namespace Yuca

open Arith Spec

variable {N C H W : Nat}

/-! ## Bytes -/

theorem byteOf_unit {x : ℝ} (h0 : 0 ≤ x) (h1 : x ≤ 1) :
    (byteOf x : ℝ) ≤ 255 * x ∧ 255 * x < byteOf x + 1 ∧ byteOf x ≤ 255 := by
  have f0 : 0 ≤ ⌊255 * x⌋ := Int.floor_nonneg.2 (by linarith)
  have f1 : ⌊255 * x⌋ < 256 := Int.floor_lt.2 (by push_cast; linarith)
  have e : (byteOf x : ℤ) = ⌊255 * x⌋ := by
    unfold byteOf
    rw [Int.emod_eq_of_lt f0 f1, Int.toNat_of_nonneg f0]
  have e' : (byteOf x : ℝ) = (⌊255 * x⌋ : ℝ) := by exact_mod_cast e
  refine ⟨?_, ?_, by omega⟩
  · rw [e']; exact Int.floor_le _
  · rw [e']; exact Int.lt_floor_add_one _

theorem byteOf_mono {x y : ℝ} (h0 : 0 ≤ x) (h : x ≤ y) (h1 : y ≤ 1) : byteOf x ≤ byteOf y := by
  obtain ⟨a1, a2, _⟩ := byteOf_unit h0 (h.trans h1)
  obtain ⟨b1, b2, _⟩ := byteOf_unit (h0.trans h) h1
  have : (byteOf x : ℝ) < byteOf y + 1 := by linarith
  have : byteOf x < byteOf y + 1 := by exact_mod_cast this
  omega

theorem byteOf_close {x y : ℝ} (hx0 : 0 ≤ x) (hx1 : x ≤ 1) (hy0 : 0 ≤ y) (hy1 : y ≤ 1)
    (h : byteOf x = byteOf y) : |x - y| < 1 / 255 := by
  obtain ⟨a1, a2, _⟩ := byteOf_unit hx0 hx1
  obtain ⟨b1, b2, _⟩ := byteOf_unit hy0 hy1
  rw [h] at a1 a2
  rw [abs_lt]
  constructor <;> linarith

theorem byteOf_zero : byteOf 0 = 0 := by simp [byteOf]

theorem byteOf_one : byteOf 1 = 255 := by
  obtain ⟨_, h, h'⟩ := byteOf_unit (x := 1) (by norm_num) le_rfl
  have : (254 : ℝ) < byteOf 1 := by linarith
  have : 254 < byteOf 1 := by exact_mod_cast this
  omega

/-! ## Pictures -/

/-- The position of channel `c` among the colours: two channels are shown as green and blue. -/
def Spec.colourOf (C c : Nat) : Nat := if C + 1 = 2 then c + 1 else c

/-- C91: with two or more channels, colour `c` of a pixel is the cell's channel (of sample 0) in
steps of 1/255, cut off; the first three colours are inverted. -/
theorem picture_colour (p : Palette) (inv : Bool) (u : Univ ℝ (N + 1) (C + 1) H W) (hC : 1 ≤ C)
    (c : Fin (C + 1)) (hc : c.val < 4) (i : Fin H) (j : Fin W) :
    (picture p inv u i j)[colourOf C c.val]? = some
      (if inv ∧ c.val < 3 then 255 - byteOf (u 0 c i j) else byteOf (u 0 c i j)) := by
  obtain ⟨c, hlt⟩ := c
  simp only at hc
  unfold picture rawPixel colourOf
  by_cases h4 : 4 ≤ C + 1
  · rw [dif_pos h4, if_neg (by omega : ¬ C + 1 = 2)]
    interval_cases c <;> cases inv <;> simp [invertPixel, List.finRange_succ] <;> rfl
  · rw [dif_neg h4]
    by_cases h3 : C + 1 = 3
    · rw [dif_pos h3, if_neg (by omega : ¬ C + 1 = 2)]
      have : c < 3 := by omega
      interval_cases c <;> cases inv <;> simp [invertPixel, List.finRange_succ] <;> rfl
    · rw [dif_neg h3, dif_pos (by omega : C + 1 = 2), if_pos (by omega : C + 1 = 2)]
      have : c < 2 := by omega
      interval_cases c <;> cases inv <;> simp [invertPixel] <;> rfl

/-- Three colours, four for four or more channels. -/
theorem picture_length (p : Palette) (inv : Bool) (u : Univ ℝ (N + 1) (C + 1) H W) (hC : 1 ≤ C)
    (i : Fin H) (j : Fin W) : (picture p inv u i j).length = if 4 ≤ C + 1 then 4 else 3 := by
  unfold picture rawPixel
  by_cases h4 : 4 ≤ C + 1
  · rw [dif_pos h4, if_pos h4]; cases inv <;> simp [invertPixel]
  · rw [dif_neg h4, if_neg h4]
    by_cases h3 : C + 1 = 3
    · rw [dif_pos h3]; cases inv <;> simp [invertPixel]
    · rw [dif_neg h3, dif_pos (by omega : C + 1 = 2)]
      cases inv <;> simp [invertPixel]

/-- C91: a picture of two channels has no red: inverted, every pixel is full of it. -/
theorem picture_red (p : Palette) (inv : Bool) (u : Univ ℝ (N + 1) 2 H W) (i : Fin H)
    (j : Fin W) : (picture (C := 1) p inv u i j)[0]? = some (if inv then 255 else 0) := by
  unfold picture rawPixel
  rw [dif_neg (by omega), dif_neg (by omega), dif_pos (by rfl)]
  cases inv <;> simp [invertPixel]

/-- C91: with one channel the pixel is the colour of the map that belongs to the cell. -/
theorem picture_map (p : Palette) (u : Univ ℝ (N + 1) 1 H W) (i : Fin H) (j : Fin W) (k : Fin 256)
    (h0 : (k.val : ℝ) / 256 ≤ u 0 0 i j) (h1 : k.val < 255 → u 0 0 i j < (k.val + 1 : ℝ) / 256)  :
    picture (C := 0) p false u i j = (p k).map byteOf ∧
      picture (C := 0) p true u i j =
        (((p k).map byteOf).take 3).map (fun x => 255 - x) ++ ((p k).map byteOf).drop 3 := by
  have hk : (⟨(max 0 (min 255 ⌊256 * u 0 0 i j⌋)).toNat, by omega⟩ : Fin 256) = k := by
    apply Fin.ext
    have f0 : (k.val : ℤ) ≤ ⌊256 * u 0 0 i j⌋ := Int.le_floor.2 (by push_cast; linarith)
    have f1 : k.val < 255 → ⌊256 * u 0 0 i j⌋ < k.val + 1 := fun h =>
      Int.floor_lt.2 (by push_cast; linarith [h1 h])
    have := k.isLt
    simp only
    rcases Nat.lt_or_ge k.val 255 with h | h
    · have := f1 h; omega
    · omega
  unfold picture rawPixel
  rw [dif_neg (by omega), dif_neg (by omega), dif_neg (by omega)]
  unfold Palette.look
  rw [hk]
  exact ⟨rfl, rfl⟩

/-- C91: only the first sample and its first four channels are shown. -/
theorem picture_first_sample (p : Palette) (inv : Bool) {u v : Univ ℝ (N + 1) (C + 1) H W}
    (h : ∀ c : Fin (C + 1), c.val < 4 → u 0 c = v 0 c) : picture p inv u = picture p inv v := by
  funext i j
  have : rawPixel p u i j = rawPixel p v i j := by
    unfold rawPixel
    split
    · refine List.map_congr_left fun c _ => ?_
      rw [h _ (by simp)]
    · split
      · refine List.map_congr_left fun c _ => ?_
        rw [h _ (by simp only [Fin.val_cast]; omega)]
      · split
        · rw [h _ (by simp), h _ (by simp)]
        · rw [h _ (by simp)]
  simp only [picture, this]

/-- C91: universes with equal pictures are less than 1/255 apart in every channel shown. -/
theorem picture_close (p : Palette) (inv : Bool) {u v : Univ ℝ (N + 1) (C + 1) H W} (hC : 1 ≤ C)
    (hu : InUnit u) (hv : InUnit v) (h : picture p inv u = picture p inv v) (c : Fin (C + 1))
    (hc : c.val < 4) (i : Fin H) (j : Fin W) : |u 0 c i j - v 0 c i j| < 1 / 255 := by
  have h1 := picture_colour p inv u hC c hc i j
  rw [h, picture_colour p inv v hC c hc i j] at h1
  have h1 := Option.some.inj h1
  have bu := (byteOf_unit (hu 0 c i j).1 (hu 0 c i j).2).2.2
  have bv := (byteOf_unit (hv 0 c i j).1 (hv 0 c i j).2).2.2
  refine byteOf_close (hu 0 c i j).1 (hu 0 c i j).2 (hv 0 c i j).1 (hv 0 c i j).2 ?_
  split at h1 <;> omega

/-- C91: fuller cells are darker (inverted) in every colour. -/
theorem picture_darker (p : Palette) {u v : Univ ℝ (N + 1) (C + 1) H W} (hC : 1 ≤ C)
    (hu : InUnit u) (hv : InUnit v) (c : Fin (C + 1)) (hc : c.val < 3) (i : Fin H) (j : Fin W)
    (h : u 0 c i j ≤ v 0 c i j) :
    ∃ a b, (picture p true u i j)[colourOf C c.val]? = some a ∧
      (picture p true v i j)[colourOf C c.val]? = some b ∧ b ≤ a ∧ a ≤ 255 := by
  refine ⟨_, _, picture_colour p true u hC c (by omega) i j,
    picture_colour p true v hC c (by omega) i j, ?_, ?_⟩
  · rw [if_pos ⟨rfl, hc⟩, if_pos ⟨rfl, hc⟩]
    have := byteOf_mono (hu 0 c i j).1 h (hv 0 c i j).2
    omega
  · rw [if_pos ⟨rfl, hc⟩]; omega

/-- C91: with four or more channels an empty cell is transparent white, and a cell is transparent
exactly if its fourth channel is below 1/255, whatever the others hold. -/
theorem picture_transparent (p : Palette) {u : Univ ℝ (N + 1) (C + 1) H W} (h4 : 4 ≤ C + 1)
    (hu : InUnit u) (i : Fin H) (j : Fin W) :
    ((∀ c, u 0 c i j = 0) → picture p true u i j = [255, 255, 255, 0]) ∧
      ((picture p true u i j)[3]? = some 0 ↔ u 0 ⟨3, by omega⟩ i j < 1 / 255) := by
  constructor
  · intro h
    unfold picture rawPixel
    rw [dif_pos h4]
    simp [h, byteOf_zero, invertPixel, List.finRange_succ]
  · have h1 := picture_colour p true u (by omega) ⟨3, by omega⟩ (by simp) i j
    simp only [colourOf, if_neg (by omega : ¬ C + 1 = 2)] at h1
    rw [h1]
    simp only [lt_irrefl, and_false, if_false, Option.some.injEq]
    obtain ⟨a1, a2, _⟩ := byteOf_unit (hu 0 ⟨3, by omega⟩ i j).1 (hu 0 ⟨3, by omega⟩ i j).2
    constructor
    · intro h; rw [h] at a2; norm_num at a2; linarith
    · intro h
      have : (byteOf (u 0 ⟨3, by omega⟩ i j) : ℝ) < 1 := by linarith
      have : byteOf (u 0 ⟨3, by omega⟩ i j) < 1 := by exact_mod_cast this
      omega

/-! ## Films -/

theorem speed_movie {V V' I : Type} {m : Film V I} {m' : Movie V' I} {f : V' → V}
    (hf : ∀ x, m.frame (f x) = .ok (f (m'.frame x))) (k : Nat) :
    ∀ x, m.speed k (f x) = .ok (f (m'.frame^[k] x)) := by
  induction k with
  | zero => intro x; rfl
  | succ k ih =>
    intro x
    simp only [Film.speed, hf, bind, Except.bind, Function.iterate_succ, Function.comp_apply]
    exact ih _

theorem filmLoop_movie {V V' I : Type} {m : Film V I} {m' : Movie V' I} {f : V' → V}
    (hf : ∀ x, m.frame (f x) = .ok (f (m'.frame x))) (hd : ∀ x, m.dead (f x) = .ok (m'.dead x))
    (hp : ∀ x, m.picture (f x) = .ok (m'.picture x)) (speedup numSteps k : Nat) :
    ∀ step x last d, filmLoop m speedup numSteps k step (f x) last d =
      ((frameLoop m' speedup numSteps k step x last d).1,
        .ok (frameLoop m' speedup numSteps k step x last d).2) := by
  induction k with
  | zero => intro step x last d; rfl
  | succ k ih =>
    intro step x last d
    simp only [filmLoop, frameLoop, hd, hp, speed_movie hf]
    cases m'.dead x
    · simp only [Bool.false_eq_true, if_false]
      exact ih _ _ _ _
    · rfl

/-- If nothing raises, the film is the movie. -/
theorem saveFilm_movie {V V' I : Type} {m : Film V I} {m' : Movie V' I} {f : V' → V}
    (hf : ∀ x, m.frame (f x) = .ok (f (m'.frame x))) (hd : ∀ x, m.dead (f x) = .ok (m'.dead x))
    (hp : ∀ x, m.picture (f x) = .ok (m'.picture x)) {speedup numSteps : Nat} {x : V'}
    {g : Option (List I)} (h : saveFigSequence m' speedup numSteps x [] = .ok g) :
    saveFilm m speedup numSteps (f x) [] = ([], .ok g) := by
  unfold saveFigSequence at h
  unfold saveFilm
  rw [filmLoop_movie hf hd hp]
  rcases hr : frameLoop m' speedup numSteps numSteps 0 x none [] with ⟨d', last⟩
  rw [hr] at h
  cases last with
  | none => cases h
  | some step =>
    simp only at h ⊢
    split at h
    · rename_i hs
      rw [if_pos hs]
      cases hg : makeGif d' with
      | error e => rw [hg] at h; cases h
      | ok l => rw [hg] at h; cases h; rfl
    · rename_i hs
      rw [if_neg hs]; cases h; rfl

/-- The universe after a step that cannot fail. -/
noncomputable def nextOf {int : Nat} (ca : CCA ℝ (C + 1) int) (u : Univ ℝ N (C + 1) H W) :
    Univ ℝ N (C + 1) H W :=
  match ca.forward u with
  | .ok r => r.1
  | .error _ => u

theorem nextOf_ok {int : Nat} {ca : CCA ℝ (C + 1) int} {u : Univ ℝ N (C + 1) H W}
    (h : ∃ r, ca.forward u = .ok r) :
    ca.forward u = .ok (nextOf ca u, { ca with t := add ca.t ca.dt }) := by
  obtain ⟨r, h⟩ := h
  obtain ⟨_, _, _, _, _, _, e⟩ := CCA.forward_ok h
  unfold nextOf
  rw [h]
  simp only
  rw [e]

theorem iterate_nextOf {int : Nat} {ca : CCA ℝ (C + 1) int}
    (hr : ∀ u : Univ ℝ N (C + 1) H W, ∃ r, ca.forward u = .ok r) (k : Nat) :
    ∀ (t : ℝ) (u : Univ ℝ N (C + 1) H W), ∃ t',
      iterate CCA.forward k { ca with t := t } u = .ok ((nextOf ca)^[k] u, { ca with t := t' }) := by
  induction k with
  | zero => intro t u; exact ⟨t, rfl⟩
  | succ k ih =>
    intro t u
    have h1 : CCA.forward { ca with t := t } u =
        .ok (nextOf ca u, { ca with t := add t ca.dt }) := by
      have h := nextOf_ok (hr u)
      unfold CCA.forward at h ⊢
      obtain ⟨a, h2, h⟩ := bind_ok h
      obtain ⟨b, h3, h⟩ := bind_ok h
      obtain ⟨c, h4, h⟩ := bind_ok h
      have h4' : CCA.updateUniverse { ca with t := t } a b = .ok c := h4
      have h5 := congrArg Prod.fst (Except.ok.inj h)
      simp only at h5
      simp only [h2, h3, h4', bind, Except.bind, pure, Except.pure, h5]
    obtain ⟨t', h2⟩ := ih (add t ca.dt) (nextOf ca u)
    exact ⟨t', by simp only [iterate, h1, bind, Except.bind, Function.iterate_succ,
      Function.comp_apply]; exact h2⟩

/-- Nothing is left of a universe: `grid.max() < 0.001`. -/
def Spec.Gone (u : Univ ℝ N C H W) : Prop := ∀ n c i j, u n c i j < 0.001

/-- C91: for an automaton with fewer than four channels that can step (`cca_runs_iff`) the call
never raises; the gif shows the pictures of the states that `forward` reaches every `speedup`
steps, the first of them twice, until the universe (all samples of it) is gone, and the frames
directory is removed. -/
theorem film_plays {int : Nat} (ca : CCA ℝ (C + 1) int) (hC : C + 1 < 4)
    (hid : Fits ca.idL H W) (hnb : Fits ca.nbL H W) (hg : ca.genesis.length = int)
    (hpe : ca.persistence.length = int) (p : Palette) (inv : Bool) (speedup n : Nat) (hn : 1 ≤ n)
    (hn' : n ≤ 10 ^ 10) (u : Univ ℝ (N + 1) (C + 1) H W) :
    ∃ x : Nat → Univ ℝ (N + 1) (C + 1) H W,
      (∀ i, ∃ ca', iterate CCA.forward (speedup * i) ca u = .ok (x i, ca')) ∧
      ∃ k ≤ n, (∀ i < k, ¬ Gone (x i)) ∧ (k < n → Gone (x k)) ∧
        saveFilm (ca.film p inv 0) speedup n (.new u) [] =
          ([], .ok (if k = 0 ∨ n = 1 then none else
            some (picture p inv (x 0) :: (List.range k).map fun i => picture p inv (x i)))) := by
  have hr : ∀ u : Univ ℝ (N + 1) (C + 1) H W, ∃ r, ca.forward u = .ok r := fun u =>
    (cca_runs_iff ca u).2 ⟨hid, hnb, hg, hpe⟩
  let m : Movie (Univ ℝ (N + 1) (C + 1) H W) (Fin H → Fin W → List Nat) :=
    ⟨nextOf ca, vanished, picture p inv⟩
  have hv : ∀ u : Univ ℝ (N + 1) (C + 1) H W, vanished u = true ↔ Gone u := by
    intro u; simp [vanished, Gone]
  refine ⟨fun i => (nextOf ca)^[speedup * i] u, fun i => ?_, ?_⟩
  · obtain ⟨t', h⟩ := iterate_nextOf hr (speedup * i) ca.t u
    exact ⟨_, h⟩
  · obtain ⟨k, ⟨k1, k2, k3⟩, k4⟩ := gif_plays_trajectory m speedup n u hn hn'
    refine ⟨k, k1, fun i hi hgone => ?_, fun h => (hv _).1 (k3 h), ?_⟩
    · have := k2 i hi
      rw [show m.dead (m.frame^[speedup * i] u) = true from (hv _).2 hgone] at this
      cases this
    · refine saveFilm_movie (f := Frame.new) (m' := m) (fun x => ?_) (fun x => rfl) (fun x => rfl) k4
      show ca.getFrame x 0 = _
      rw [cca_frame0_eq_forward ca x hC, nextOf_ok (hr x)]
      rfl

/-- C91: in any other mode (the docstring lists five) the call raises on the first frame of a
universe that is not gone, and leaves that frame's file behind: with `speedup = 1` because a tuple
has no `max`, with more because a tuple cannot be convolved. -/
theorem film_other_modes {int : Nat} (ca : CCA ℝ (C + 1) int) (hid : Fits ca.idL H W)
    (hnb : Fits ca.nbL H W) (hg : ca.genesis.length = int) (hpe : ca.persistence.length = int)
    (p : Palette) (inv : Bool) (mode : Int) (hm : mode ≠ 0) (n : Nat) (hn : 2 ≤ n)
    (u : Univ ℝ (N + 1) (C + 1) H W) (hu : ¬ Gone u) :
    saveFilm (ca.film p inv mode) 1 n (.new u) [] =
        ([(frameName n 0, picture p inv u)], .error .attribute) ∧
      ∀ k, saveFilm (ca.film p inv mode) (k + 2) n (.new u) [] =
        ([(frameName n 0, picture p inv u)], .error .type) := by
  obtain ⟨idn, h1⟩ := (apply_ok_iff ca.idL u).2 hid
  obtain ⟨nb, h2⟩ := (apply_ok_iff ca.nbL u).2 hnb
  obtain ⟨G, h3⟩ := (perChannel_ok_iff ca.genesis nb).2 hg
  obtain ⟨P, h4⟩ := (perChannel_ok_iff ca.persistence nb).2 hpe
  have hv : vanished u = false := by
    simp only [vanished, decide_eq_false_iff_not]; exact hu
  have hf : ∃ f, ca.getFrame u mode = .ok f ∧ ∀ v, f ≠ .new v := by
    simp only [CCA.getFrame, h1, h2, CCA.updateUniverse, h3, h4, bind, Except.bind, pure,
      Except.pure, if_neg hm]
    refine ⟨_, rfl, fun v => ?_⟩
    repeat' split
    all_goals simp
  obtain ⟨f, hf, hne⟩ := hf
  obtain ⟨n, rfl⟩ : ∃ k, n = k + 2 := ⟨n - 2, by omega⟩
  have hd : (ca.film p inv mode : Film (Frame ℝ (N + 1) (C + 1) int H W) _).dead f =
      .error .attribute := by
    cases f with
    | new v => exact absurd rfl (hne v)
    | _ => rfl
  have hfr : (ca.film p inv mode : Film (Frame ℝ (N + 1) (C + 1) int H W) _).frame f =
      .error .type := by
    cases f with
    | new v => exact absurd rfl (hne v)
    | _ => rfl
  have e1 : (ca.film p inv mode).dead (.new u) = .ok false := by
    show Except.ok (vanished u) = _; rw [hv]
  have e2 : (ca.film p inv mode).picture (.new u) = .ok (picture p inv u) := rfl
  have e3 : (ca.film p inv mode).frame (.new u) = .ok f := hf
  constructor
  · simp only [saveFilm, filmLoop, e1, e2, Film.speed, e3, bind, Except.bind, hd, writeFile,
      List.filter_nil, List.nil_append]
  · intro k
    simp only [saveFilm, filmLoop, e1, e2, Film.speed, e3, bind, Except.bind, hfr, writeFile,
      List.filter_nil, List.nil_append]

/-! ## The gif of Life -/

theorem picture_bits (p : Palette) (inv : Bool) {u : Univ ℝ (N + 1) 1 H W} (hu : InUnit u)
    {s : Fin (N + 1) → Fin H → Fin W → Bool} (hs : Spec.Near (1 / 1000000) u s) :
    picture (C := 0) p inv u = picture (C := 0) p inv (ofBits s) := by
  funext i j
  have key : ∀ k : Fin 256, (k.val : ℝ) / 256 ≤ u 0 0 i j →
      (k.val < 255 → u 0 0 i j < (k.val + 1 : ℝ) / 256) →
      (k.val : ℝ) / 256 ≤ ofBits s 0 0 i j →
      (k.val < 255 → ofBits s 0 0 i j < (k.val + 1 : ℝ) / 256) →
      picture (C := 0) p inv u i j = picture (C := 0) p inv (ofBits s) i j := by
    intro k a b c d
    have h1 := picture_map p u i j k a b
    have h2 := picture_map p (ofBits s) i j k c d
    cases inv
    · rw [h1.1, h2.1]
    · rw [h1.2, h2.2]
  have h1 := hs 0 i j
  have h2 := (hu 0 0 i j).1
  rw [abs_le] at h1
  cases hb : s 0 i j
  · simp only [hb, bit, Bool.false_eq_true, if_false] at h1
    apply key 0 <;> simp [ofBits, hb, bit] <;> linarith
  · simp only [hb, bit, if_true] at h1
    apply key 255 <;> simp [ofBits, hb, bit] <;> linarith

theorem gone_bits {u : Univ ℝ N 1 H W} {s : Fin N → Fin H → Fin W → Bool}
    (hs : Spec.Near (1 / 1000000) u s) : Gone u ↔ ∀ n i j, s n i j = false := by
  constructor
  · intro h n i j
    have h1 := hs n i j
    have h2 := h n 0 i j
    cases hb : s n i j
    · rfl
    · rw [abs_le] at h1
      simp only [hb, bit, if_true] at h1
      norm_num at h2
      linarith [h1.1]
  · intro h n c i j
    have h1 := hs n i j
    rw [abs_le] at h1
    simp only [h n i j, bit, Bool.false_eq_true, if_false] at h1
    rw [Subsingleton.elim c 0]
    norm_num
    linarith [h1.2]

/-- C91: the gif of a life-like rule (birth within survival) is the textbook film: for any pattern
on any torus picture `i` is the picture of the true generation `i` in two colours (the last colour
of the map for the living, the first for the dead, `picture_two_colours`), until no cell of any
sample is alive. -/
theorem life_gif (birth survival : List Nat) (hB : RuleList birth) (hS : RuleList survival)
    (hsub : birth ⊆ survival) (hH : 1 ≤ H) (hW : 1 ≤ W) (p : Palette) (inv : Bool) (n : Nat)
    (hn : 1 ≤ n) (hn' : n ≤ 10 ^ 10) (s : Fin (N + 1) → Fin H → Fin W → Bool) :
    ∃ k ≤ n, (∀ i < k, ∃ m a b, (lifeStep birth survival)^[i] (s m) a b = true) ∧
      (k < n → ∀ m a b, (lifeStep birth survival)^[k] (s m) a b = false) ∧
      saveFilm ((lifeCA birth survival).film p inv 0) 1 n (.new (ofBits s)) [] =
        ([], .ok (if k = 0 ∨ n = 1 then none else
          some (picture (C := 0) p inv (ofBits s) :: (List.range k).map fun i =>
            picture (C := 0) p inv (ofBits fun m => (lifeStep birth survival)^[i] (s m))))) := by
  have hfit : Fits (lifeCA birth survival).idL H W ∧ Fits (lifeCA birth survival).nbL H W := by
    constructor <;>
      simp [Fits, lifeCA, identityLayer, ConvLayer.ofKernel, ConvLayer.pad, padOK, hH, hW]
  obtain ⟨x, hx, k, k1, k2, k3, k4⟩ := film_plays (C := 0) (lifeCA birth survival) (by omega)
    hfit.1 hfit.2 rfl rfl p inv 1 n hn hn' (ofBits s)
  have near : ∀ i, Spec.Near (1 / 1000000) (x i) (fun m => (lifeStep birth survival)^[i] (s m)) := by
    intro i
    obtain ⟨ca', h1⟩ := hx i
    obtain ⟨r, h2, h3⟩ := life_forever birth survival hB hS hsub hH hW s i
    rw [one_mul, h2] at h1
    cases h1
    exact h3
  have unit : ∀ i, InUnit (x i) := by
    intro i
    obtain ⟨ca', h1⟩ := hx i
    refine iterate_inv (fun (_ : CCA ℝ 1 1) (b : Univ ℝ (N + 1) 1 H W) => InUnit b)
      (fun _ _ _ _ _ h => cca_unit h) _ _ _ (x i, ca') ?_ h1
    intro n e i j; simp only [ofBits, bit]; split <;> norm_num
  have pic : ∀ i, picture (C := 0) p inv (x i) =
      picture (C := 0) p inv (ofBits fun m => (lifeStep birth survival)^[i] (s m)) := fun i =>
    picture_bits p inv (unit i) (near i)
  refine ⟨k, k1, fun i hi => ?_, fun h => (gone_bits (near k)).1 (k3 h), ?_⟩
  · have := k2 i hi
    rw [gone_bits (near i)] at this
    push Not at this
    obtain ⟨m, a, b, h⟩ := this
    exact ⟨m, a, b, by simpa using h⟩
  · rw [k4]
    simp only [pic]
    rfl

/-- The two colours. -/
theorem picture_two_colours (p : Palette) (s : Fin (N + 1) → Fin H → Fin W → Bool) (i : Fin H)
    (j : Fin W) : picture (C := 0) p false (ofBits s) i j =
      (p (if s 0 i j then 255 else 0)).map byteOf := by
  cases hb : s 0 i j
  · simp only [Bool.false_eq_true, if_false]
    apply (picture_map p (ofBits s) i j 0 _ _).1 <;> simp [ofBits, hb, bit]
  · simp only [if_true]
    apply (picture_map p (ofBits s) i j 255 _ _).1 <;> simp [ofBits, hb, bit] ; norm_num

theorem alive_le (s : Fin H → Fin W → Bool) (i : Fin H) (j : Fin W) : aliveNeighbours s i j ≤ 8 :=
  List.countP_le_length

/-- C91, refuted that the film ends when nothing is left to see: the vanishing test looks at all
samples, the picture at the first.  A batch whose first sample is empty is filmed to the end, every
picture being that of the empty universe. -/
theorem film_empty_refuted (p : Palette) (inv : Bool) (n : Nat) (hn : 2 ≤ n) (hn' : n ≤ 10 ^ 10) :
    ∃ (ca : CCA ℝ 1 1) (u : Univ ℝ 2 1 3 3), (∀ c i j, u 0 c i j = 0) ∧
      saveFilm (ca.film p inv 0) 1 n (.new u) [] =
        ([], .ok (some (List.replicate (n + 1)
          (picture (N := 0) (C := 0) p inv fun _ _ _ _ => 0)))) := by
  let s : Fin 2 → Fin 3 → Fin 3 → Bool := fun m _ _ => decide (m = 1)
  have hfix : ∀ s : Fin 3 → Fin 3 → Bool, lifeStep [] [0, 1, 2, 3, 4, 5, 6, 7, 8] s = s := by
    intro s
    funext i j
    have := alive_le s i j
    unfold lifeStep
    cases h : s i j
    · simp
    · simp only [if_true]
      generalize aliveNeighbours s i j = a at *
      interval_cases a <;> rfl
  have hit : ∀ i (s : Fin 3 → Fin 3 → Bool), (lifeStep [] [0, 1, 2, 3, 4, 5, 6, 7, 8])^[i] s = s :=
    fun i s => Function.iterate_fixed (hfix s) i
  obtain ⟨k, k1, k2, k3, k4⟩ := life_gif [] [0, 1, 2, 3, 4, 5, 6, 7, 8] (by simp [RuleList])
    (by simp [RuleList]) (by simp) (by norm_num) (by norm_num) p inv n (by omega) hn' s
  simp only [hit] at k3 k4
  have hk : k = n := by
    rcases Nat.lt_or_ge k n with h | h
    · have := k3 h 1 0 0
      simp [s] at this
    · omega
  have hp : picture (C := 0) p inv (ofBits s) =
      picture (N := 0) (C := 0) p inv (fun _ _ _ _ => 0 : Univ ℝ 1 1 3 3) := by
    funext i j
    simp [picture, rawPixel, ofBits, bit, s]
  refine ⟨_, ofBits s, fun c i j => by simp [ofBits, bit, s], k4.trans ?_⟩
  rw [if_neg (by omega), hp, hk]
  simp [List.replicate_succ, List.map_const']

/-- A glider on a torus of side 8 is filmed. -/
example : ∃ s : Fin 1 → Fin 8 → Fin 8 → Bool, RuleList [3] ∧ RuleList [2, 3] ∧ [3] ⊆ [2, 3] ∧
    s 0 1 1 = true :=
  ⟨fun _ _ _ => true, by simp [RuleList], by simp [RuleList], by simp, rfl⟩

/-- A colour map, a universe of four channels in `[0, 1]`, and one that is not gone. -/
example : InUnit (fun _ _ _ _ => 1 / 2 : Univ ℝ 1 4 2 2) ∧
    ¬ Gone (fun _ _ _ _ => 1 / 2 : Univ ℝ 1 4 2 2) ∧
    (picture (C := 3) (fun _ => []) true (fun _ _ _ _ => 1 / 2 : Univ ℝ 1 4 2 2) 0 0)[3]? = some 127 := by
  refine ⟨fun _ _ _ _ => by norm_num, fun h => by have := h 0 0 0 0; norm_num at this, ?_⟩
  have h := picture_colour (C := 3) (fun _ => []) true (fun _ _ _ _ => 1 / 2 : Univ ℝ 1 4 2 2) (by omega) 3
    (by decide) 0 0
  have h2 : byteOf (1 / 2) = 127 := by
    obtain ⟨a, b, _⟩ := byteOf_unit (x := 1 / 2) (by norm_num) (by norm_num)
    have a : (byteOf (1 / 2) : ℝ) < 128 := by linarith
    have b : (126 : ℝ) < byteOf (1 / 2) := by linarith
    have a : byteOf (1 / 2) < 128 := by exact_mod_cast a
    have b : 126 < byteOf (1 / 2) := by exact_mod_cast b
    omega
  rw [← h2]
  exact h

end Yuca
