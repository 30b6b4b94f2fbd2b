import Verif.Model.Browser
import Verif.Props.Librarian
import Mathlib.Data.List.Rotate
import Mathlib.Tactic.Linarith
import Mathlib.Tactic.NormNum
import Mathlib.Tactic.FieldSimp

/-!
# The pattern browser (C97)
-/

namespace Yuca

variable {σ K : Type} [Zero K]

/-! ## Specification -/

/-- A pattern with array `p` and metadata `m` can be shown and gives the grid `g`, whatever the
state of the automaton. -/
structure Spec.Gives (B : Backend σ K) (name : Str) (p : Cells K) (m : PatternMeta)
    (g : PageGrid K) : Prop where
  loads : load B.dir name = .ok (p, m)
  pastes : paste p = .ok g
  restores : ∀ c, (B.restore c m.caConfig).2 = none

/-- A pattern that can be shown. -/
def Spec.Showable (B : Backend σ K) (name : Str) : Prop := ∃ p m g, Spec.Gives B name p m g

/-- A pattern that cannot be shown whatever the state of the automaton. -/
def Spec.Broken (B : Backend σ K) (name : Str) : Prop :=
  ∀ p m, load B.dir name = .ok (p, m) →
    (∀ c, (B.restore c m.caConfig).2 ≠ none) ∨ ∀ g, paste p ≠ .ok g

/-- A pattern that can be shown and is not passed over. -/
def Spec.ShowsPlainly (B : Backend σ K) (name : Str) : Prop :=
  ∃ p m g, Spec.Gives B name p m g ∧ m.commitHash ≠ "none".toList

/-- A pattern that can be shown and is passed over. -/
def Spec.PassedOver (B : Backend σ K) (name : Str) : Prop :=
  ∃ p m g, Spec.Gives B name p m g ∧ m.commitHash = "none".toList

/-- `s'` shows the named pattern at its start, under the rule restored from its metadata; the
timer, its period and the step counter are as in `s`. -/
structure Spec.ShowsNow (B : Backend σ K) (s s' : Page σ K) (name : Str) : Prop where
  content : ∃ p m, load B.dir name = .ok (p, m) ∧ paste p = .ok s'.grid ∧
    s'.ca = (B.restore s.ca m.caConfig).1 ∧
    s'.config = "\nCA config: ".toList ++ stem m.caConfig ++ " ".toList
  image : s'.image = s'.grid
  caption : s'.caption = "alias: ".toList ++ name
  step : s'.step = s.step
  period : s'.period = s.period
  running : s'.running = s.running
  callbacks : s'.callbacks = s.callbacks
  message : s'.message = s.message

/-- The clock of the page: one callback with the current period while running, none otherwise;
the period is a power of two from 128 to 8192 milliseconds. -/
structure Spec.Clock (s : Page σ K) : Prop where
  callbacks : s.callbacks = if s.running = true then [s.period] else []
  period : ∃ k : Nat, 7 ≤ k ∧ k ≤ 13 ∧ s.period = 2 ^ k

/-! ## Placing a pattern -/

omit [Zero K] in
theorem sliceTakes_iff (n : Nat) : sliceTakes n ↔ n ≤ 90 := by
  unfold sliceTakes sliceTo sliceFrom sliceBound placeAt
  split <;> split <;> omega

theorem slice_small (n : Nat) (h : n ≤ 90) :
    sliceFrom n = (96 - n) / 2 - 3 ∧ sliceTo n = (96 - n) / 2 - 3 + n := by
  unfold sliceTo sliceFrom sliceBound placeAt
  constructor <;> split <;> omega

/-- C97: a pattern fits exactly if it has one sample, one channel and at most 90 rows and 90
columns, although the grid has 96. -/
theorem paste_ok_iff (p : Cells K) :
    (∃ g, paste p = .ok g) ↔ ∃ h w, p.shape = [1, 1, h, w] ∧ h ≤ 90 ∧ w ≤ 90 := by
  unfold paste
  constructor
  · rintro ⟨g, hg⟩
    split at hg
    all_goals try cases hg
    rename_i a b h w he
    split at hg
    · rename_i hc
      obtain ⟨rfl, rfl, h1, h2⟩ := hc
      exact ⟨h, w, he, (sliceTakes_iff h).1 h1, (sliceTakes_iff w).1 h2⟩
    · cases hg
  · rintro ⟨h, w, he, h1, h2⟩
    rw [he]
    dsimp only
    rw [if_pos ⟨rfl, rfl, (sliceTakes_iff h).2 h1, (sliceTakes_iff w).2 h2⟩]
    exact ⟨_, rfl⟩

/-- C97: where its cells are: moved up and to the left of the centre by three; the rest is
empty. -/
theorem paste_cells (p : Cells K) (h w : Nat) (hs : p.shape = [1, 1, h, w]) (hh : h ≤ 90)
    (hw : w ≤ 90) (g : PageGrid K) (hg : paste p = .ok g) :
    (∀ i j (hi : i < h) (hj : j < w),
      g ⟨(96 - h) / 2 - 3 + i, by omega⟩ ⟨(96 - w) / 2 - 3 + j, by omega⟩ = p.cell 0 0 i j) ∧
    ∀ x y : Fin 96, (¬ ((96 - h) / 2 - 3 ≤ x ∧ (x : Nat) < (96 - h) / 2 - 3 + h) ∨
      ¬ ((96 - w) / 2 - 3 ≤ y ∧ (y : Nat) < (96 - w) / 2 - 3 + w)) → g x y = 0 := by
  unfold paste at hg
  rw [hs] at hg
  dsimp only at hg
  rw [if_pos ⟨rfl, rfl, (sliceTakes_iff h).2 hh, (sliceTakes_iff w).2 hw⟩] at hg
  obtain ⟨a1, a2⟩ := slice_small h hh
  obtain ⟨b1, b2⟩ := slice_small w hw
  rw [a1, a2, b1, b2] at hg
  cases hg
  refine ⟨fun i j hi hj => ?_, fun x y hxy => ?_⟩
  · dsimp only
    rw [if_pos (by omega)]
    have e1 : (if h = 1 then 0 else (96 - h) / 2 - 3 + i - ((96 - h) / 2 - 3)) = i := by
      split <;> omega
    have e2 : (if w = 1 then 0 else (96 - w) / 2 - 3 + j - ((96 - w) / 2 - 3)) = j := by
      split <;> omega
    rw [e1, e2]
  · exact if_neg (by tauto)

/-! ## One handler -/

theorem put_ok (B : Backend σ K) (s : Page σ K) (name : Str) (p : Cells K) (m : PatternMeta)
    (g : PageGrid K) (h : Spec.Gives B name p m g) :
    s.put B p m = ({ s with ca := (B.restore s.ca m.caConfig).1, grid := g }, none) := by
  have hr := h.restores s.ca
  unfold Page.put
  split
  · rename_i c e he; rw [he] at hr; cases hr
  · rename_i c he
    rw [h.pastes]
    simp only [he]

theorem put_fails (B : Backend σ K) (s s' : Page σ K) (name : Str) (p : Cells K)
    (m : PatternMeta) (e : PyErr) (hl : load B.dir name = .ok (p, m))
    (h : s.put B p m = (s', some e)) :
    ¬ Spec.Showable B name ∧ s'.index = s.index ∧ s'.image = s.image ∧ s'.caption = s.caption ∧
      s'.grid = s.grid := by
  constructor
  · rintro ⟨p', m', g, hg⟩
    have := hg.loads
    rw [hl] at this
    cases this
    rw [put_ok B s name p m g hg] at h
    cases h
  · unfold Page.put at h
    split at h
    · cases h; exact ⟨rfl, rfl, rfl, rfl⟩
    · split at h
      · cases h; exact ⟨rfl, rfl, rfl, rfl⟩
      · cases h

theorem put_succeeds (B : Backend σ K) (s s' : Page σ K) (p : Cells K) (m : PatternMeta)
    (h : s.put B p m = (s', none)) :
    ∃ g, paste p = .ok g ∧
      s' = { s with ca := (B.restore s.ca m.caConfig).1, grid := g } := by
  unfold Page.put at h
  split at h
  · cases h
  · rename_i c he
    split at h
    · cases h
    · rename_i g hg
      cases h
      exact ⟨g, hg, by simp only [he]⟩

theorem present_ok (B : Backend σ K) (s : Page σ K) (l : List Str) (name : Str) (p : Cells K)
    (m : PatternMeta) (g : PageGrid K) (h : Spec.Gives B name p m g) :
    s.present B l name = (({ s with ca := (B.restore s.ca m.caConfig).1, grid := g
                                    index := l ++ [name] } : Page σ K).publish name m, .ok m) := by
  unfold Page.present
  rw [h.loads]
  dsimp only
  rw [put_ok B _ name p m g h]

theorem present_shows (B : Backend σ K) (s s' : Page σ K) (l : List Str) (name : Str)
    (m : PatternMeta) (h : s.present B l name = (s', .ok m)) :
    s'.index = l ++ [name] ∧ Spec.ShowsNow B s s' name := by
  unfold Page.present at h
  split at h
  · cases h
  · rename_i p m' hl
    split at h
    · cases h
    · rename_i s₁ hp
      obtain ⟨g, hg, rfl⟩ := put_succeeds B _ _ _ _ hp
      cases h
      exact ⟨rfl, ⟨p, m, hl, hg, rfl, rfl⟩, rfl, rfl, rfl, rfl, rfl, rfl, rfl⟩

theorem present_fails (B : Backend σ K) (s s' : Page σ K) (l : List Str) (name : Str)
    (e : PyErr) (h : s.present B l name = (s', .error e)) :
    ¬ Spec.Showable B name ∧ s'.index = l ∧ s'.image = s.image ∧ s'.caption = s.caption ∧
      s'.grid = fun _ _ => 0 := by
  unfold Page.present at h
  split at h
  · rename_i e' hl
    cases h
    refine ⟨?_, rfl, rfl, rfl, rfl⟩
    rintro ⟨p, m, g, hg⟩
    rw [hg.loads] at hl
    cases hl
  · rename_i p m hl
    split at h
    · rename_i s₁ e' hp
      cases h
      exact put_fails B _ _ name p m _ hl hp
    · cases h

theorem broken_present (B : Backend σ K) (s s' : Page σ K) (l : List Str) (name : Str)
    (m : PatternMeta) (h : Spec.Broken B name) : s.present B l name ≠ (s', .ok m) := by
  intro hq
  unfold Page.present at hq
  split at hq
  · cases hq
  · rename_i p m' hl
    split at hq
    · cases hq
    · rename_i s₁ hput
      unfold Page.put at hput
      rcases h p m' hl with h | h
      · split at hput
        · cases hput
        · rename_i c hc; exact h _ (by rw [hc])
      · split at hput
        · cases hput
        · split at hput
          · cases hput
          · rename_i g hg; exact h g hg

/-- C97: "Next pattern" shows the first pattern of the index and moves it to the end. -/
theorem next_shows (B : Backend σ K) (k : Nat) (s : Page σ K) (x : Str) (l : List Str)
    (hi : s.index = x :: l) (hx : Spec.ShowsPlainly B x) :
    ∃ s', s.resetNext B (k + 1) = (s', none) ∧ s'.index = l ++ [x] ∧ Spec.ShowsNow B s s' x := by
  obtain ⟨p, m, g, hg, hm⟩ := hx
  have hp := present_ok B s l x p m g hg
  have hs := present_shows B s _ l x m hp
  refine ⟨_, ?_, hs⟩
  rw [Page.resetNext, hi]
  dsimp only
  rw [hp]
  exact if_neg hm

/-- C97: "Previous pattern" shows the one before the current one, which goes to the front. -/
theorem prev_shows (B : Backend σ K) (k : Nat) (s : Page σ K) (x y : Str) (l : List Str)
    (hi : s.index = l ++ [y, x]) (hy : Spec.ShowsPlainly B y) :
    ∃ s', s.resetPrev B (k + 1) = (s', none) ∧ s'.index = x :: l ++ [y] ∧
      Spec.ShowsNow B s s' y := by
  obtain ⟨p, m, g, hg, hm⟩ := hy
  have hp := present_ok B s (x :: l) y p m g hg
  have hs := present_shows B s _ (x :: l) y m hp
  refine ⟨_, ?_, hs⟩
  have e0 : s.index = (l ++ [y]) ++ [x] := by rw [hi]; simp
  have e1 : s.index.getLast? = some x := by rw [e0]; simp
  have e2 : s.index.dropLast = l ++ [y] := by rw [e0]; simp
  rw [Page.resetPrev, e1]
  dsimp only
  have e3 : (x :: s.index.dropLast).dropLast = x :: l := by
    rw [e2, ← List.cons_append, List.dropLast_concat]
  have e4 : (x :: s.index.dropLast).getLast?.getD x = y := by
    rw [e2, ← List.cons_append, List.getLast?_concat]; rfl
  rw [e3, e4, hp]
  exact if_neg hm

/-- C97: with a single pattern both buttons show it again. -/
theorem prev_single (B : Backend σ K) (k : Nat) (s : Page σ K) (x : Str) (hi : s.index = [x])
    (hx : Spec.ShowsPlainly B x) :
    ∃ s', s.resetPrev B (k + 1) = (s', none) ∧ s'.index = [x] ∧ Spec.ShowsNow B s s' x := by
  obtain ⟨p, m, g, hg, hm⟩ := hx
  have hp := present_ok B s [] x p m g hg
  have hs := present_shows B s _ [] x m hp
  refine ⟨_, ?_, hs⟩
  rw [Page.resetPrev, hi]
  dsimp only [List.getLast?, List.getLast, List.dropLast, Option.getD]
  rw [hp]
  exact if_neg hm

/-- C97: "Reset current pattern" shows the last pattern of the index, passed over or not, and
leaves the index alone. -/
theorem this_shows (B : Backend σ K) (s : Page σ K) (x : Str) (l : List Str)
    (hi : s.index = l ++ [x]) (hx : Spec.Showable B x) :
    ∃ s', s.resetThis B = (s', none) ∧ s'.index = l ++ [x] ∧ Spec.ShowsNow B s s' x := by
  obtain ⟨p, m, g, hg⟩ := hx
  have e1 : s.index.getLast? = some x := by rw [hi]; simp
  have e2 : s.index.dropLast = l := by rw [hi]; simp
  have hres : s.resetThis B = (({ s with grid := g, index := l ++ [x]
                                         ca := (B.restore s.ca m.caConfig).1 } :
      Page σ K).publishThis x m, none) := by
    unfold Page.resetThis
    rw [e1]
    dsimp only
    rw [hg.loads]
    dsimp only
    rw [put_ok B _ x p m g hg, e2]
  exact ⟨_, hres, rfl, ⟨p, m, hg.loads, hg.pastes, rfl, rfl⟩, rfl, rfl, rfl, rfl, rfl, rfl, rfl⟩

/-! ## The texts under the picture -/

/-- Where the shown pattern comes from: the entry point and the commit of its metadata, a line
break `brk` after the first and `gap` before the second, and with `full` its notes. -/
def Spec.Tells (s : Page σ K) (m : PatternMeta) (brk gap : Str) (full : Prop) : Prop :=
  s.entry = "\nevolved with: ".toList ++ brk ++ m.entryPoint ∧
  (full ∧ m.notes ≠ [] → s.git = "\nat git commit hash: \n".toList ++ gap ++ m.commitHash ++
    "\n\nnote: ".toList ++ m.notes) ∧
  (¬ (full ∧ m.notes ≠ []) → s.git = "\nat git commit hash: \n".toList ++ gap ++ m.commitHash)

theorem present_tells (B : Backend σ K) (s s' : Page σ K) (l : List Str) (name : Str)
    (m : PatternMeta) (h : s.present B l name = (s', .ok m)) :
    s'.index.getLast? = some name ∧ (∃ p, load B.dir name = .ok (p, m)) ∧
      Spec.Tells s' m [] " ".toList False := by
  unfold Page.present at h
  split at h
  · cases h
  · rename_i p m' hl
    split at h
    · cases h
    · rename_i s₁ hp
      cases h
      exact ⟨by simp [Page.publish], ⟨p, hl⟩, rfl, fun h => h.1.elim, fun _ => rfl⟩

/-- C97: "Reset current pattern" tells the origin of the pattern, with its notes if there are
any. -/
theorem this_tells (B : Backend σ K) (s s' : Page σ K) (h : s.resetThis B = (s', none)) :
    ∃ x p m, s'.index.getLast? = some x ∧ load B.dir x = .ok (p, m) ∧
      Spec.Tells s' m "\n".toList [] True := by
  unfold Page.resetThis at h
  split at h
  · cases h
  · rename_i x hx
    split at h
    · cases h
    · rename_i p m hl
      split at h
      · cases h
      · rename_i s₁ hp
        cases h
        obtain ⟨g, _, hs⟩ := put_succeeds B _ _ _ _ hp
        refine ⟨x, p, m, ?_, hl, rfl, fun hn => ?_, fun hn => ?_⟩
        · rw [hs]
          exact List.getLast?_concat
        · have e : (if m.notes = [] then [] else "\n\nnote: ".toList ++ m.notes) = _ := if_neg hn.2
          exact (congrArg (fun z : Str => "\nat git commit hash: \n".toList ++ m.commitHash ++ z)
            e).trans ((List.append_assoc _ _ _).symm.trans (congrArg (fun z : Str => z ++ m.commitHash ++
              "\n\nnote: ".toList ++ m.notes) (List.append_nil _).symm))
        · have : m.notes = [] := by
            by_contra h0
            exact hn ⟨trivial, h0⟩
          have e : (if m.notes = [] then [] else "\n\nnote: ".toList ++ m.notes) = _ := if_pos this
          exact (congrArg (fun z : Str => "\nat git commit hash: \n".toList ++ m.commitHash ++ z)
            e).trans ((List.append_nil _).trans (congrArg (fun z : Str => z ++ m.commitHash)
              (List.append_nil _).symm))

/-- C97: the other two buttons tell the origin of the pattern they end at, never its notes. -/
theorem reset_tells (B : Backend σ K) (k : Nat) (s s' : Page σ K)
    (h : s.resetNext B k = (s', none) ∨ s.resetPrev B k = (s', none)) :
    ∃ x p m, s'.index.getLast? = some x ∧ load B.dir x = .ok (p, m) ∧ m.commitHash ≠ "none".toList ∧
      Spec.Tells s' m [] " ".toList False := by
  rcases h with h | h
  · induction k generalizing s with
    | zero => cases h
    | succ k ih =>
      rw [Page.resetNext] at h
      split at h
      · cases h
      · rename_i name l _
        split at h
        · cases h
        · rename_i s₁ m hp
          split at h
          · exact ih _ h
          · rename_i hm
            cases h
            obtain ⟨h1, ⟨p, h2⟩, h3⟩ := present_tells B s _ _ _ _ hp
            exact ⟨name, p, m, h1, h2, hm, h3⟩
  · induction k generalizing s with
    | zero => cases h
    | succ k ih =>
      rw [Page.resetPrev] at h
      split at h
      · cases h
      · rename_i cur _
        dsimp only at h
        split at h
        · cases h
        · rename_i s₁ m hp
          split at h
          · exact ih _ h
          · rename_i hm
            cases h
            obtain ⟨h1, ⟨p, h2⟩, h3⟩ := present_tells B s _ _ _ _ hp
            exact ⟨_, p, m, h1, h2, hm, h3⟩

/-! ## Passing over -/

/-- C97: "Next pattern" passes over patterns without a commit hash, if the stack is deep
enough. -/
theorem next_skips (B : Backend σ K) (k : Nat) (s : Page σ K) (xs : List Str) (y : Str)
    (l : List Str) (hi : s.index = xs ++ y :: l) (hxs : ∀ x ∈ xs, Spec.PassedOver B x)
    (hy : Spec.ShowsPlainly B y) (hk : xs.length ≤ k) :
    ∃ s', s.resetNext B (k + 1) = (s', none) ∧ s'.index = l ++ xs ++ [y] ∧
      s'.image = s'.grid ∧ s'.caption = "alias: ".toList ++ y ∧
      ∃ p m, load B.dir y = .ok (p, m) ∧ paste p = .ok s'.grid := by
  induction xs generalizing s l k with
  | nil =>
    obtain ⟨s', h1, h2, h3⟩ := next_shows B k s y l hi hy
    obtain ⟨p, m, hl, hp, _⟩ := h3.content
    exact ⟨s', h1, by simpa using h2, h3.image, h3.caption, p, m, hl, hp⟩
  | cons x xs ih =>
    obtain ⟨p, m, g, hg, hm⟩ := hxs x (by simp)
    have hp := present_ok B s (xs ++ y :: l) x p m g hg
    obtain ⟨k, rfl⟩ : ∃ k', k = k' + 1 := ⟨k - 1, by simp at hk; omega⟩
    obtain ⟨s', h1, h2, h3⟩ := ih k
      (({ s with
          ca := (B.restore s.ca m.caConfig).1
          grid := g
          index := (xs ++ y :: l) ++ [x] } : Page σ K).publish x m)
      (l ++ [x]) (by simp [Page.publish]) (fun x hx => hxs x (by simp [hx]))
      (by simp at hk; omega)
    refine ⟨s', ?_, by simpa using h2, h3⟩
    rw [Page.resetNext, hi]
    dsimp only [List.cons_append]
    rw [hp]
    dsimp only
    rw [if_pos (show m.commitHash = noneHash from hm)]
    exact h1

/-- C97: if every pattern is passed over, the handler raises RecursionError, however deep the
stack. -/
theorem all_passed_over (B : Backend σ K) (k : Nat) (s : Page σ K) (hne : s.index ≠ [])
    (h : ∀ x ∈ s.index, Spec.PassedOver B x) :
    (s.resetNext B k).2 = some .recursion ∧ (s.resetPrev B k).2 = some .recursion := by
  constructor
  · induction k generalizing s with
    | zero => rfl
    | succ k ih =>
      obtain ⟨x, l, hi⟩ := List.exists_cons_of_ne_nil hne
      obtain ⟨p, m, g, hg, hm⟩ := h x (by rw [hi]; simp)
      rw [Page.resetNext, hi]
      dsimp only
      rw [present_ok B s l x p m g hg]
      dsimp only
      rw [if_pos (show m.commitHash = noneHash from hm)]
      refine ih _ (by simp [Page.publish]) fun y hy => h y ?_
      rw [hi]
      simpa [Page.publish, or_comm] using hy
  · induction k generalizing s with
    | zero => rfl
    | succ k ih =>
      obtain ⟨x, hx⟩ : ∃ x, s.index.getLast? = some x := ⟨_, List.getLast?_eq_some_getLast hne⟩
      rw [Page.resetPrev, hx]
      dsimp only
      have hsub : ∀ y ∈ x :: s.index.dropLast, y ∈ s.index := by
        intro y hy
        rcases List.mem_cons.1 hy with rfl | hy
        · exact List.mem_of_getLast? hx
        · exact List.mem_of_mem_dropLast hy
      obtain ⟨y, hy⟩ : ∃ y, (x :: s.index.dropLast).getLast? = some y :=
        ⟨_, List.getLast?_eq_some_getLast (List.cons_ne_nil x s.index.dropLast)⟩
      rw [hy]
      dsimp only [Option.getD]
      obtain ⟨p, m, g, hg, hm⟩ := h _ (hsub _ (List.mem_of_getLast? hy))
      rw [present_ok B s _ _ p m g hg]
      dsimp only
      rw [if_pos (show m.commitHash = noneHash from hm)]
      refine ih _ (by simp [Page.publish]) fun z hz => h z (hsub z ?_)
      simp only [Page.publish] at hz
      rcases List.mem_append.1 hz with hz | hz
      · exact List.mem_of_mem_dropLast hz
      · rw [List.mem_singleton.1 hz]
        exact List.mem_of_getLast? hy

/-- C97, exception: no pattern written by `store` with the commit hash "none" is passed over; the
hash is loaded with its newline. -/
theorem stored_none_refuted (verbose : Bool) (fuel : Nat) (d d' : Dir (Cells K))
    (a : StoreArgs (Cells K)) (k : Nat) (h : store verbose fuel d a = some (k, d'))
    (hn : a.commitHash = "none".toList)
    (hok : ∀ s ∈ [a.config verbose, a.notes, a.entryPoint], '\n' ∉ s ∧ '\r' ∉ s ∧ ',' ∉ s)
    (B : Backend σ K) (hB : B.dir = d') : ¬ Spec.PassedOver B (variantName a.name k) := by
  rintro ⟨p, m, g, hg, hm⟩
  have hl := load_store_exact verbose fuel d a k d' h (by
    intro s hs
    simp only [List.mem_cons, List.not_mem_nil, or_false] at hs
    rcases hs with rfl | rfl | rfl | rfl
    · exact hok _ (by simp)
    · rw [hn]; decide
    · exact hok _ (by simp)
    · exact hok _ (by simp))
  have h2 := hg.loads
  rw [hB, hl] at h2
  cases h2
  rw [hn] at hm
  exact absurd (show "none".toList ++ ['\n'] = "none".toList from hm) (by decide)

/-! ## The index over a session -/

theorem next_index (B : Backend σ K) (k : Nat) (s : Page σ K) :
    ((s.resetNext B k).1.index.Perm s.index) ∨
      (∃ e, (s.resetNext B k).2 = some e) ∧ ∃ name, s.index.Perm (name :: (s.resetNext B k).1.index) ∧
        ¬ Spec.Showable B name := by
  induction k generalizing s with
  | zero => exact Or.inl (List.Perm.refl _)
  | succ k ih =>
    rw [Page.resetNext]
    cases hi : s.index with
    | nil => exact Or.inl (by simp)
    | cons x l =>
      dsimp only
      cases hp : s.present B l x with
      | mk s' r =>
      cases r with
      | error e =>
        obtain ⟨h1, h2, _⟩ := present_fails B s s' l x e hp
        exact Or.inr ⟨⟨e, rfl⟩, x, by rw [h2], h1⟩
      | ok m =>
        obtain ⟨h1, _⟩ := present_shows B s s' l x m hp
        have hperm : s'.index.Perm (x :: l) := by rw [h1]; exact List.perm_append_singleton x l
        dsimp only
        split
        · rcases ih s' with h | ⟨he, n, hn, hs⟩
          · exact Or.inl (h.trans hperm)
          · exact Or.inr ⟨he, n, hperm.symm.trans hn, hs⟩
        · exact Or.inl hperm

theorem prev_index (B : Backend σ K) (k : Nat) (s : Page σ K) :
    ((s.resetPrev B k).1.index.Perm s.index) ∨
      (∃ e, (s.resetPrev B k).2 = some e) ∧ ∃ name, s.index.Perm (name :: (s.resetPrev B k).1.index) ∧
        ¬ Spec.Showable B name := by
  induction k generalizing s with
  | zero => exact Or.inl (List.Perm.refl _)
  | succ k ih =>
    rw [Page.resetPrev]
    cases hx : s.index.getLast? with
    | none => exact Or.inl (List.Perm.refl _)
    | some x =>
      dsimp only
      have hne : s.index ≠ [] := by rintro h; rw [h] at hx; cases hx
      have hturn : (x :: s.index.dropLast).Perm s.index := by
        have h1 : s.index.getLast hne = x := by
          rw [List.getLast?_eq_some_getLast hne] at hx
          exact Option.some.inj hx
        have h2 := List.dropLast_append_getLast hne
        rw [h1] at h2
        have h3 := (List.perm_append_singleton x s.index.dropLast).symm
        rwa [h2] at h3
      generalize x :: s.index.dropLast = t at hturn
      obtain ⟨y, hy⟩ : ∃ y, t.getLast?.getD x = y := ⟨_, rfl⟩
      rw [hy]
      have hback : t.dropLast ++ [y] = t := by
        cases ht : t.getLast? with
        | none =>
          rw [List.getLast?_eq_none_iff] at ht
          rw [ht] at hturn
          exact absurd hturn.symm.eq_nil hne
        | some z =>
          rw [ht] at hy
          rw [← hy]
          exact List.dropLast_append_getLast? _ ht
      cases hp : s.present B t.dropLast y with
      | mk s' r =>
      cases r with
      | error e =>
        obtain ⟨h1, h2, _⟩ := present_fails B s s' _ _ e hp
        refine Or.inr ⟨⟨e, rfl⟩, y, ?_, h1⟩
        rw [h2]
        have h3 := List.perm_append_singleton y t.dropLast
        rw [hback] at h3
        exact hturn.symm.trans h3
      | ok m =>
        obtain ⟨h1, _⟩ := present_shows B s s' _ _ m hp
        have hperm : s'.index.Perm s.index := by
          rw [h1, hback]; exact hturn
        dsimp only
        split
        · rcases ih s' with h | ⟨he, n, hn, hs⟩
          · exact Or.inl (h.trans hperm)
          · exact Or.inr ⟨he, n, hperm.symm.trans hn, hs⟩
        · exact Or.inl hperm

theorem this_index (B : Backend σ K) (s : Page σ K) :
    ((s.resetThis B).1.index = s.index) ∨
      (∃ e, (s.resetThis B).2 = some e) ∧ ∃ name, s.index.Perm (name :: (s.resetThis B).1.index) ∧
        ¬ Spec.Showable B name := by
  unfold Page.resetThis
  cases hx : s.index.getLast? with
  | none => exact Or.inl rfl
  | some x =>
    dsimp only
    have hne : s.index ≠ [] := by rintro h; rw [h] at hx; cases hx
    have h1 : s.index.getLast hne = x := by
      rw [List.getLast?_eq_some_getLast hne] at hx
      exact Option.some.inj hx
    have h2 := List.dropLast_append_getLast hne
    rw [h1] at h2
    cases hl : load B.dir x with
    | error e =>
      refine Or.inr ⟨⟨e, rfl⟩, x, ?_, ?_⟩
      · have h3 := List.perm_append_singleton x s.index.dropLast
        rwa [h2] at h3
      · rintro ⟨p, m, g, hg⟩
        rw [hg.loads] at hl
        cases hl
    | ok pm =>
      obtain ⟨p, m⟩ := pm
      dsimp only
      left
      split
      · rename_i s' e hp
        rw [(put_fails B _ _ x p m e hl hp).2.1]
        exact h2
      · rename_i s' hp
        obtain ⟨g, _, rfl⟩ := put_succeeds B _ _ _ _ hp
        exact h2

omit [Zero K] in
theorem goTwice_keeps (s : Page σ K) :
    s.goTwice.1.index = s.index ∧ s.goTwice.1.step = s.step ∧ s.goTwice.1.caption = s.caption ∧
      s.goTwice.1.grid = s.grid ∧ s.goTwice.1.image = s.image ∧
      s.goTwice.1.message = s.message := by
  have key : ∀ t : Page σ K, t.go.1.index = t.index ∧ t.go.1.step = t.step ∧
      t.go.1.caption = t.caption ∧ t.go.1.grid = t.grid ∧ t.go.1.image = t.image ∧
      t.go.1.message = t.message := by
    intro t
    unfold Page.go
    split
    · exact ⟨rfl, rfl, rfl, rfl, rfl, rfl⟩
    · split <;> exact ⟨rfl, rfl, rfl, rfl, rfl, rfl⟩
  have h1 := key s
  unfold Page.goTwice
  split
  · rename_i s' e he; rw [he] at h1; exact h1
  · rename_i s' he
    rw [he] at h1
    have h2 := key s'
    exact ⟨h2.1.trans h1.1, h2.2.1.trans h1.2.1, h2.2.2.1.trans h1.2.2.1,
      h2.2.2.2.1.trans h1.2.2.2.1, h2.2.2.2.2.1.trans h1.2.2.2.2.1,
      h2.2.2.2.2.2.trans h1.2.2.2.2.2⟩

/-- C97: what one event does to the index: it is permuted, or the handler raises and one pattern
that cannot be shown is gone. -/
theorem click_index (B : Backend σ K) (frames : Nat) (s : Page σ K) (c : Click) :
    ((s.click B frames c).1.index.Perm s.index) ∨
      (∃ e, (s.click B frames c).2 = some e) ∧ ∃ name,
        s.index.Perm (name :: (s.click B frames c).1.index) ∧ ¬ Spec.Showable B name := by
  cases c with
  | go =>
    left
    unfold Page.click Page.go
    dsimp only
    split
    · exact List.Perm.refl _
    · split <;> exact List.Perm.refl _
  | faster => left; exact List.Perm.of_eq (goTwice_keeps _).1
  | slower => left; exact List.Perm.of_eq (goTwice_keeps _).1
  | prev => exact prev_index B frames s
  | this =>
    rcases this_index B s with h | h
    · exact Or.inl (List.Perm.of_eq h)
    · exact Or.inr h
  | next => exact next_index B frames s
  | timer =>
    left
    unfold Page.click Page.fire Page.update
    dsimp only
    split
    · exact List.Perm.refl _
    · split <;> exact List.Perm.refl _

/-- C97: over a whole session exactly patterns that cannot be shown may get lost. -/
theorem session_index (B : Backend σ K) (frames : Nat) (l : List Click) (s : Page σ K) :
    ∃ lost, s.index.Perm (lost ++ (s.clicks B frames l).index) ∧
      ∀ n ∈ lost, ¬ Spec.Showable B n := by
  induction l generalizing s with
  | nil => exact ⟨[], List.Perm.refl _, by simp⟩
  | cons c l ih =>
    obtain ⟨lost, h1, h2⟩ := ih (s.click B frames c).1
    rcases click_index B frames s c with h | ⟨_, n, hn, hs⟩
    · exact ⟨lost, h.symm.trans h1, h2⟩
    · refine ⟨n :: lost, hn.trans (h1.cons n), ?_⟩
      intro x hx
      rcases List.mem_cons.1 hx with rfl | hx
      · exact hs
      · exact h2 x hx

/-- C97: if every pattern can be shown, none is ever lost or doubled. -/
theorem session_perm (B : Backend σ K) (frames : Nat) (l : List Click) (s : Page σ K)
    (h : ∀ n ∈ s.index, Spec.Showable B n) : (s.clicks B frames l).index.Perm s.index := by
  obtain ⟨lost, h1, h2⟩ := session_index B frames l s
  cases lost with
  | nil => exact h1.symm
  | cons n lost => exact absurd (h n (h1.symm.subset (by simp))) (h2 n (by simp))

/-- C97: one round with "Next pattern" over an index of patterns that are shown or broken: the
broken ones are gone, the others in their old order. -/
theorem one_round (B : Backend σ K) (frames : Nat) (s : Page σ K)
    (P : Str → Bool) (hP : ∀ n ∈ s.index, if P n = true then Spec.ShowsPlainly B n else Spec.Broken B n) :
    (s.clicks B (frames + 1) (List.replicate s.index.length .next)).index = s.index.filter P := by
  have key : ∀ (todo done : List Str) (s : Page σ K), s.index = todo ++ done →
      (∀ n ∈ todo, if P n = true then Spec.ShowsPlainly B n else Spec.Broken B n) →
      (s.clicks B (frames + 1) (List.replicate todo.length .next)).index =
        done ++ todo.filter P := by
    intro todo
    induction todo with
    | nil => intro done s hi _; simpa [Page.clicks] using hi
    | cons x todo ih =>
      intro done s hi h
      have hx := h x (by simp)
      rw [List.length_cons, List.replicate_succ]
      change ((s.resetNext B (frames + 1)).1.clicks B (frames + 1)
        (List.replicate todo.length .next)).index = _
      by_cases hp : P x = true
      · rw [if_pos hp] at hx
        obtain ⟨s', h1, h2, _⟩ := next_shows B frames s x (todo ++ done) hi hx
        rw [h1, ih (done ++ [x]) s' (by rw [h2]; simp) (fun n hn => h n (by simp [hn]))]
        rw [List.filter_cons_of_pos hp]
        simp
      · rw [if_neg hp] at hx
        have h1 : (s.resetNext B (frames + 1)).1.index = todo ++ done := by
          rw [Page.resetNext, hi]
          dsimp only [List.cons_append]
          cases hq : s.present B (todo ++ done) x with
          | mk s' r =>
          cases r with
          | error e => exact (present_fails B s s' _ x e hq).2.1
          | ok m =>
            exact absurd hq (broken_present B s s' _ x m hx)
        rw [ih done _ h1 (fun n hn => h n (by simp [hn])), List.filter_cons_of_neg hp]
  have := key s.index [] s (by simp) hP
  simpa using this

/-- C97: with "Next pattern" the patterns come round in order: the click number `k + 1` shows the
pattern at place `k`, and the index is turned by `k + 1` places. -/
theorem tour (B : Backend σ K) (frames : Nat) (s : Page σ K) (hne : s.index ≠ [])
    (h : ∀ n ∈ s.index, Spec.ShowsPlainly B n) (k : Nat) :
    ∃ s₀ : Page σ K, ∃ x, s.index[k % s.index.length]? = some x ∧
      (s.clicks B (frames + 1) (List.replicate (k + 1) .next)).index = s.index.rotate (k + 1) ∧
      Spec.ShowsNow B s₀ (s.clicks B (frames + 1) (List.replicate (k + 1) .next)) x := by
  have hlen : 0 < s.index.length := List.length_pos_iff.2 hne
  have key : ∀ k, (s.clicks B (frames + 1) (List.replicate k .next)).index = s.index.rotate k → 
      ∃ x, s.index[k % s.index.length]? = some x ∧
        (s.clicks B (frames + 1) (List.replicate (k + 1) .next)).index = s.index.rotate (k + 1) ∧
        Spec.ShowsNow B (s.clicks B (frames + 1) (List.replicate k .next))
          (s.clicks B (frames + 1) (List.replicate (k + 1) .next)) x := by
    intro k hk
    have hstep : s.clicks B (frames + 1) (List.replicate (k + 1) .next) =
        ((s.clicks B (frames + 1) (List.replicate k .next)).resetNext B (frames + 1)).1 := by
      unfold Page.clicks
      rw [List.replicate_succ', List.foldl_append]
      rfl
    generalize s.clicks B (frames + 1) (List.replicate k .next) = t at hk hstep
    have hrne : s.index.rotate k ≠ [] := by
      intro h0
      rw [List.rotate_eq_nil_iff] at h0
      exact hne h0
    obtain ⟨x, l, hxl⟩ := List.exists_cons_of_ne_nil hrne
    have hx : x ∈ s.index := by
      have : x ∈ s.index.rotate k := by rw [hxl]; simp
      exact List.mem_rotate.1 this
    obtain ⟨s', h1, h2, h3⟩ := next_shows B frames t x l (by rw [hk, hxl]) (h x hx)
    rw [hstep, h1]
    refine ⟨x, ?_, ?_, h3⟩
    · have h4 : (s.index.rotate k)[0]? = some x := by rw [hxl]; rfl
      rw [List.getElem?_rotate hlen] at h4
      rwa [Nat.zero_add] at h4
    · rw [h2, ← List.rotate_rotate, hxl]
      simp
  have hall : ∀ k, (s.clicks B (frames + 1) (List.replicate k .next)).index = s.index.rotate k := by
    intro k
    induction k with
    | zero => simp [Page.clicks]
    | succ k ih => obtain ⟨x, _, h2, _⟩ := key k ih; exact h2
  obtain ⟨x, h1, h2, h3⟩ := key k (hall k)
  exact ⟨_, x, h1, h2, h3⟩

/-- C97: "Next pattern" and then "Previous pattern" leads back, and so does the other order. -/
theorem next_prev (B : Backend σ K) (frames : Nat) (s : Page σ K) (l : List Str) (x : Str)
    (hi : s.index = l ++ [x]) (h : ∀ n ∈ s.index, Spec.ShowsPlainly B n) :
    (∃ s₀, (s.clicks B (frames + 1) [.next, .prev]).index = s.index ∧
      Spec.ShowsNow B s₀ (s.clicks B (frames + 1) [.next, .prev]) x) ∧
    ∃ s₀, (s.clicks B (frames + 1) [.prev, .next]).index = s.index ∧
      Spec.ShowsNow B s₀ (s.clicks B (frames + 1) [.prev, .next]) x := by
  have hx : Spec.ShowsPlainly B x := h x (by rw [hi]; simp)
  constructor
  · change ∃ s₀, ((s.resetNext B (frames + 1)).1.resetPrev B (frames + 1)).1.index = s.index ∧
      Spec.ShowsNow B s₀ ((s.resetNext B (frames + 1)).1.resetPrev B (frames + 1)).1 x
    cases l with
    | nil =>
      obtain ⟨s₁, h1, h2, _⟩ := next_shows B frames s x [] (by simpa using hi) hx
      obtain ⟨s₂, h3, h4, h5⟩ := prev_single B frames s₁ x (by simpa using h2) hx
      rw [h1]
      dsimp only
      rw [h3]
      exact ⟨s₁, by rw [h4, hi]; rfl, h5⟩
    | cons y l =>
      obtain ⟨s₁, h1, h2, _⟩ := next_shows B frames s y (l ++ [x]) (by simpa using hi)
        (h y (by rw [hi]; simp))
      obtain ⟨s₂, h3, h4, h5⟩ := prev_shows B frames s₁ y x l (by simpa using h2) hx
      rw [h1]
      dsimp only
      rw [h3]
      exact ⟨s₁, by rw [h4, hi], h5⟩
  · change ∃ s₀, ((s.resetPrev B (frames + 1)).1.resetNext B (frames + 1)).1.index = s.index ∧
      Spec.ShowsNow B s₀ ((s.resetPrev B (frames + 1)).1.resetNext B (frames + 1)).1 x
    rcases List.eq_nil_or_concat l with rfl | ⟨l, y, rfl⟩
    · obtain ⟨s₁, h1, h2, _⟩ := prev_single B frames s x (by simpa using hi) hx
      obtain ⟨s₂, h3, h4, h5⟩ := next_shows B frames s₁ x [] h2 hx
      rw [h1]
      dsimp only
      rw [h3]
      exact ⟨s₁, by rw [h4, hi], h5⟩
    · obtain ⟨s₁, h1, h2, _⟩ := prev_shows B frames s x y l (by simpa using hi)
        (h y (by rw [hi]; simp))
      obtain ⟨s₂, h3, h4, h5⟩ := next_shows B frames s₁ x (l ++ [y]) (by simpa using h2) hx
      rw [h1]
      dsimp only
      rw [h3]
      exact ⟨s₁, by rw [h4, hi]; simp, h5⟩

/-! ## Patterns that cannot be shown -/

/-- C97, exception: "Next pattern" on a pattern that cannot be shown raises and removes it from
the index; the old pattern stays on the screen while the grid behind it is empty. -/
theorem broken_next_refuted (B : Backend σ K) (k : Nat) (s : Page σ K) (x : Str) (l : List Str)
    (hi : s.index = x :: l) (hx : Spec.Broken B x) :
    ∃ e, (s.resetNext B (k + 1)).2 = some e ∧ (s.resetNext B (k + 1)).1.index = l ∧
      (s.resetNext B (k + 1)).1.image = s.image ∧ (s.resetNext B (k + 1)).1.caption = s.caption ∧
      ∀ i j, (s.resetNext B (k + 1)).1.grid i j = 0 := by
  rw [Page.resetNext, hi]
  dsimp only
  cases hq : s.present B l x with
  | mk s' r =>
  cases r with
  | error e =>
    obtain ⟨_, h1, h2, h3, h4⟩ := present_fails B s s' _ x e hq
    exact ⟨e, rfl, h1, h2, h3, fun i j => by rw [h4]⟩
  | ok m => exact absurd hq (broken_present B s s' _ x m hx)

/-- C97, exception: after "Previous pattern" has failed, "Reset current pattern" shows neither the
pattern on the screen nor the one asked for, but the one before. -/
theorem broken_prev_refuted (B : Backend σ K) (k : Nat) (s : Page σ K) (x y z : Str) (l : List Str)
    (hi : s.index = l ++ [z, y, x]) (hy : Spec.Broken B y) (hz : Spec.Showable B z) :
    ∃ s₁ s₂ e, s.resetPrev B (k + 1) = (s₁, some e) ∧ s₁.index = x :: l ++ [z] ∧
      s₁.caption = s.caption ∧ s₁.resetThis B = (s₂, none) ∧ Spec.ShowsNow B s₁ s₂ z := by
  have e0 : s.index = (l ++ [z, y]) ++ [x] := by rw [hi]; simp
  have e1 : s.index.getLast? = some x := by rw [e0]; simp
  have e2 : s.index.dropLast = (l ++ [z]) ++ [y] := by rw [e0]; simp
  have e3 : (x :: s.index.dropLast).dropLast = x :: (l ++ [z]) := by
    rw [e2, ← List.cons_append, List.dropLast_concat]
  have e4 : (x :: s.index.dropLast).getLast?.getD x = y := by
    rw [e2, ← List.cons_append, List.getLast?_concat]; rfl
  cases hq : s.present B (x :: (l ++ [z])) y with
  | mk s' r =>
  cases r with
  | error e =>
    obtain ⟨_, h1, h2, h3, h4⟩ := present_fails B s s' _ y e hq
    obtain ⟨s₂, h5, _, h6⟩ := this_shows B s' z (x :: l) (by rw [h1]; simp) hz
    refine ⟨s', s₂, e, ?_, by rw [h1]; simp, h3, h5, h6⟩
    rw [Page.resetPrev, e1]
    dsimp only
    rw [e3, e4, hq]
  | ok m => exact absurd hq (broken_present B s s' _ y m hy)

/-- An array with one sample, one channel and at most 90 rows and columns. -/
def Spec.Fits (shape : List Nat) : Bool :=
  match shape with
  | [a, b, h, w] => a == 1 && b == 1 && decide (h ≤ 90) && decide (w ≤ 90)
  | _ => false

theorem fits_iff (shape : List Nat) :
    Spec.Fits shape = true ↔ ∃ h w, shape = [1, 1, h, w] ∧ h ≤ 90 ∧ w ≤ 90 := by
  unfold Spec.Fits
  constructor
  · intro h
    split at h
    · rename_i a b x y
      simp only [Bool.and_eq_true, beq_iff_eq, decide_eq_true_eq] at h
      obtain ⟨⟨⟨rfl, rfl⟩, h1⟩, h2⟩ := h
      exact ⟨x, y, rfl, h1, h2⟩
    · cases h
  · rintro ⟨h, w, rfl, h1, h2⟩
    simp [h1, h2]

/-- The shipped patterns that the page cannot show. -/
def Spec.unshown : List String :=
  ["geminium000", "geminium_hydrogeminium_natans000", "gol_25P3H1V0_1000",
   "neurop_sinus_labens_waveglider000", "p_arcus_labens_fixed_5wide_waveglider000",
   "scutium_gravidus_superwide_000", "uskate_berrycup000", "uskate_berrycup001",
   "uskate_daedalus000", "uskate_daedalus001", "uskate_glider000", "uskate_glider001"]

/-- C97: which of the shipped patterns do not fit (the whole table). -/
theorem shipped_unshown :
    (shippedZoo.filter fun x => !Spec.Fits x.2).map Prod.fst = Spec.unshown := by
  decide +kernel

/-- The names of the shipped patterns are in order and the other files are left out. -/
theorem shipped_index : updateIndex shippedFiles = shippedZoo.map fun x => x.1.toList := by
  have hh : shippedFiles.filter (fun s => ¬ hidden s) =
      shippedZoo.map fun x => npyName x.1.toList := by decide +kernel
  have hst : (shippedZoo.map fun x => npyName x.1.toList).map stem =
      shippedZoo.map fun x => x.1.toList := by decide +kernel
  have hnd : shippedFiles.Nodup := by decide +kernel
  unfold updateIndex
  rw [erase_filter hidden _ hnd, hh, hst]
  unfold sortStr
  refine List.mergeSort_of_pairwise ?_
  decide +kernel

/-- The directory holds the shipped patterns with their shapes; their metadata name a config and a
commit hash other than "none". -/
def Spec.Shipped (d : Dir (Cells K)) : Prop :=
  ∀ x ∈ shippedZoo, ∃ p m, load d x.1.toList = .ok (p, m) ∧ p.shape = x.2 ∧
    m.commitHash ≠ "none".toList

/-- C97, exception: of the 49 shipped patterns one round with "Next pattern" leaves 37. -/
theorem shipped_round (B : Backend σ K) (frames : Nat) (s : Page σ K) (hd : Spec.Shipped B.dir)
    (hr : ∀ c r, (B.restore c r).2 = none) (hi : s.index = updateIndex shippedFiles) :
    (s.clicks B (frames + 1) (List.replicate 49 .next)).index =
        s.index.filter (fun n => !(Spec.unshown.map String.toList).contains n) ∧
      (s.clicks B (frames + 1) (List.replicate 49 .next)).index.length = 37 := by
  have hi' := hi.trans shipped_index
  have hl : s.index.length = 49 := by rw [hi']; rfl
  have hmem : ∀ x ∈ shippedZoo, (!(Spec.unshown.map String.toList).contains x.1.toList) =
      Spec.Fits x.2 := by decide +kernel
  have h := one_round B frames s (fun n => !(Spec.unshown.map String.toList).contains n) ?_
  · rw [hl] at h
    refine ⟨h, ?_⟩
    rw [h, hi']
    decide +kernel
  · intro n hn
    rw [hi'] at hn
    obtain ⟨x, hx, rfl⟩ := List.mem_map.1 hn
    obtain ⟨p, m, h1, h2, h3⟩ := hd x hx
    rw [hmem x hx]
    split
    · rename_i hf
      obtain ⟨g, hg⟩ := (paste_ok_iff p).2 (by rw [h2]; exact (fits_iff _).1 hf)
      exact ⟨p, m, g, ⟨h1, hg, fun c => hr c _⟩, h3⟩
    · rename_i hf
      intro p' m' hl'
      rw [h1] at hl'
      cases hl'
      refine Or.inr fun g hg => hf ?_
      rw [fits_iff, ← h2]
      exact (paste_ok_iff p).1 ⟨g, hg⟩

/-! ## The clock and the counter -/

/-- `s'` has the clock and the counter of `s`. -/
def Spec.SameClock (s s' : Page σ K) : Prop :=
  s'.step = s.step ∧ s'.period = s.period ∧ s'.running = s.running ∧
    s'.callbacks = s.callbacks ∧ s'.message = s.message

omit [Zero K] in
theorem sameClock_trans {s s' s'' : Page σ K} (h : Spec.SameClock s s')
    (h' : Spec.SameClock s' s'') : Spec.SameClock s s'' :=
  ⟨h'.1.trans h.1, h'.2.1.trans h.2.1, h'.2.2.1.trans h.2.2.1, h'.2.2.2.1.trans h.2.2.2.1,
    h'.2.2.2.2.trans h.2.2.2.2⟩

theorem put_sameClock (B : Backend σ K) (s : Page σ K) (p : Cells K) (m : PatternMeta) :
    Spec.SameClock s (s.put B p m).1 := by
  unfold Page.put
  split
  · exact ⟨rfl, rfl, rfl, rfl, rfl⟩
  · split <;> exact ⟨rfl, rfl, rfl, rfl, rfl⟩

theorem present_sameClock (B : Backend σ K) (s : Page σ K) (l : List Str) (n : Str) :
    Spec.SameClock s (s.present B l n).1 := by
  unfold Page.present
  split
  · exact ⟨rfl, rfl, rfl, rfl, rfl⟩
  · rename_i p m _
    have h := put_sameClock B ({ s with grid := fun _ _ => 0, index := l } : Page σ K) p m
    split
    · rename_i hp; rw [hp] at h; exact h
    · rename_i hp; rw [hp] at h; exact h

theorem next_sameClock (B : Backend σ K) (k : Nat) (s : Page σ K) :
    Spec.SameClock s (s.resetNext B k).1 := by
  induction k generalizing s with
  | zero => exact ⟨rfl, rfl, rfl, rfl, rfl⟩
  | succ k ih =>
    rw [Page.resetNext]
    split
    · exact ⟨rfl, rfl, rfl, rfl, rfl⟩
    · rename_i x l _
      have h := present_sameClock B s l x
      split
      · rename_i hp; rw [hp] at h; exact h
      · rename_i s' m hp
        rw [hp] at h
        split
        · exact sameClock_trans h (ih s')
        · exact h

theorem prev_sameClock (B : Backend σ K) (k : Nat) (s : Page σ K) :
    Spec.SameClock s (s.resetPrev B k).1 := by
  induction k generalizing s with
  | zero => exact ⟨rfl, rfl, rfl, rfl, rfl⟩
  | succ k ih =>
    rw [Page.resetPrev]
    split
    · exact ⟨rfl, rfl, rfl, rfl, rfl⟩
    · rename_i x _
      have h := present_sameClock B s (x :: s.index.dropLast).dropLast
        ((x :: s.index.dropLast).getLast?.getD x)
      dsimp only
      split
      · rename_i hp; rw [hp] at h; exact h
      · rename_i s' m hp
        rw [hp] at h
        split
        · exact sameClock_trans h (ih s')
        · exact h

theorem this_sameClock (B : Backend σ K) (s : Page σ K) :
    Spec.SameClock s (s.resetThis B).1 := by
  unfold Page.resetThis
  split
  · exact ⟨rfl, rfl, rfl, rfl, rfl⟩
  · rename_i x _
    split
    · exact ⟨rfl, rfl, rfl, rfl, rfl⟩
    · rename_i p m _
      have h := put_sameClock B
        ({ s with grid := fun _ _ => 0, index := s.index.dropLast ++ [x] } : Page σ K) p m
      split
      · rename_i hp; rw [hp] at h; exact h
      · rename_i hp; rw [hp] at h; exact h

omit [Zero K] in
theorem goTwice_clock (s : Page σ K)
    (h : s.callbacks = [] ∧ s.running = false ∨ ∃ q, s.callbacks = [q] ∧ s.running = true) :
    s.goTwice = ({ s with callbacks := if s.running = true then [s.period] else [] }, none) := by
  rcases h with ⟨h1, h2⟩ | ⟨q, h1, h2⟩
  · unfold Page.goTwice Page.go
    simp [h1, h2]
  · unfold Page.goTwice Page.go
    simp [h1, h2]

omit [Zero K] in
theorem clock_cases {s : Page σ K} (h : Spec.Clock s) :
    s.callbacks = [] ∧ s.running = false ∨ ∃ q, s.callbacks = [q] ∧ s.running = true := by
  have hc := h.callbacks
  cases hr : s.running with
  | false => left; exact ⟨by rw [hc, hr]; rfl, rfl⟩
  | true => right; exact ⟨s.period, by rw [hc, hr]; rfl, rfl⟩

omit [Zero K] in
/-- C97: the speed buttons halve or double the period within 128 and 8192 milliseconds, and leave
a running page running and a paused one paused. -/
theorem speed_buttons (s : Page σ K) (h : Spec.Clock s) :
    (∃ s', s.faster = (s', none) ∧ s'.period = max (s.period / 2) 128 ∧
      s'.running = s.running ∧ Spec.Clock s') ∧
    (∃ s', s.slower = (s', none) ∧ s'.period = min (s.period * 2) 8192 ∧
      s'.running = s.running ∧ Spec.Clock s') := by
  obtain ⟨k, hk1, hk2, hk⟩ := h.period
  have hc := clock_cases h
  constructor
  · refine ⟨_, goTwice_clock { s with period := max (s.period / 2) 128 } hc, rfl, rfl, rfl, ?_⟩
    dsimp only
    rw [hk]
    rcases Nat.eq_or_lt_of_le hk1 with rfl | hlt
    · exact ⟨7, le_refl _, by omega, by norm_num⟩
    · obtain ⟨j, rfl⟩ : ∃ j, k = j + 1 := ⟨k - 1, by omega⟩
      refine ⟨j, by omega, by omega, ?_⟩
      rw [pow_succ, mul_div_assoc, div_self (by norm_num), mul_one]
      refine max_eq_left ?_
      calc (128 : ℚ) = 2 ^ 7 := by norm_num
        _ ≤ 2 ^ j := pow_le_pow_right₀ (by norm_num) (by omega)
  · refine ⟨_, goTwice_clock { s with period := min (s.period * 2) 8192 } hc, rfl, rfl, rfl, ?_⟩
    dsimp only
    rw [hk]
    rcases Nat.eq_or_lt_of_le hk2 with rfl | hlt
    · exact ⟨13, by omega, le_refl _, by norm_num⟩
    · refine ⟨k + 1, by omega, by omega, ?_⟩
      rw [pow_succ]
      refine min_eq_left ?_
      rw [← pow_succ]
      calc (2 : ℚ) ^ (k + 1) ≤ 2 ^ 13 := pow_le_pow_right₀ (by norm_num) (by omega)
        _ = 8192 := by norm_num

omit [Zero K] in
/-- C97: "Run" and "Pause" start and stop the one timer. -/
theorem go_toggles (s : Page σ K) (h : Spec.Clock s) :
    ∃ s', s.go = (s', none) ∧ s'.running = !s.running ∧ s'.period = s.period ∧ Spec.Clock s' := by
  rcases clock_cases h with ⟨h1, h2⟩ | ⟨q, h1, h2⟩
  · refine ⟨{ s with callbacks := s.callbacks ++ [s.period], running := true }, ?_, ?_, rfl, ?_,
      h.period⟩
    · unfold Page.go; rw [if_pos h2]
    · rw [h2]; rfl
    · simp [h1]
  · refine ⟨{ s with callbacks := [], running := false }, ?_, ?_, rfl, rfl, h.period⟩
    · unfold Page.go; rw [if_neg (by simp [h2]), h1]
    · rw [h2]; rfl

/-- The number of updates among some events: timers that go off while one is registered and find
an automaton that does not raise. -/
def Spec.updates (B : Backend σ K) (frames : Nat) : Page σ K → List Click → Nat
  | _, [] => 0
  | s, c :: l =>
    (if c = .timer ∧ s.callbacks ≠ [] ∧ (s.click B frames c).2 = none then 1 else 0) +
      Spec.updates B frames (s.click B frames c).1 l

theorem click_clock (B : Backend σ K) (frames : Nat) (s : Page σ K) (c : Click)
    (h : Spec.Clock s) :
    Spec.Clock (s.click B frames c).1 ∧ (s.click B frames c).1.step = s.step +
      if c = .timer ∧ s.callbacks ≠ [] ∧ (s.click B frames c).2 = none then 1 else 0 := by
  have key : ∀ s', Spec.SameClock s s' → Spec.Clock s' := by
    intro s' hs
    refine ⟨?_, ?_⟩
    · rw [hs.2.2.2.1, hs.2.2.1, hs.2.1]; exact h.callbacks
    · rw [hs.2.1]; exact h.period
  cases c with
  | go =>
    obtain ⟨s', h1, _, _, h2⟩ := go_toggles s h
    refine ⟨by change Spec.Clock s.go.1; rw [h1]; exact h2, ?_⟩
    rw [if_neg (by simp)]
    change s.go.1.step = _
    unfold Page.go
    split
    · rfl
    · split <;> rfl
  | faster =>
    obtain ⟨⟨s', h1, _, _, h2⟩, _⟩ := speed_buttons s h
    refine ⟨by change Spec.Clock s.faster.1; rw [h1]; exact h2, ?_⟩
    rw [if_neg (by simp)]
    exact (goTwice_keeps _).2.1
  | slower =>
    obtain ⟨_, ⟨s', h1, _, _, h2⟩⟩ := speed_buttons s h
    refine ⟨by change Spec.Clock s.slower.1; rw [h1]; exact h2, ?_⟩
    rw [if_neg (by simp)]
    exact (goTwice_keeps _).2.1
  | prev =>
    have hs := prev_sameClock B frames s
    rw [if_neg (by simp)]
    exact ⟨key _ hs, hs.1⟩
  | this =>
    have hs := this_sameClock B s
    rw [if_neg (by simp)]
    exact ⟨key _ hs, hs.1⟩
  | next =>
    have hs := next_sameClock B frames s
    rw [if_neg (by simp)]
    exact ⟨key _ hs, hs.1⟩
  | timer =>
    unfold Page.click Page.fire Page.update
    dsimp only
    by_cases hc : s.callbacks = []
    · rw [if_pos hc, if_neg (by simp [hc])]
      exact ⟨h, rfl⟩
    · rw [if_neg hc]
      split
      · rw [if_neg (by simp)]
        exact ⟨h, rfl⟩
      · rw [if_pos ⟨rfl, hc, rfl⟩]
        exact ⟨⟨h.callbacks, h.period⟩, rfl⟩

/-- C97: at every moment of a session there is one timer with the displayed period while running
and none while paused, and the step counter is the number of updates since the page was opened;
no button sets it back. -/
theorem session_clock (B : Backend σ K) (frames : Nat) (l : List Click) (s : Page σ K)
    (h : Spec.Clock s) :
    Spec.Clock (s.clicks B frames l) ∧
      (s.clicks B frames l).step = s.step + Spec.updates B frames s l := by
  induction l generalizing s with
  | nil => exact ⟨h, rfl⟩
  | cons c l ih =>
    obtain ⟨h1, h2⟩ := click_clock B frames s c h
    obtain ⟨h3, h4⟩ := ih (s.click B frames c).1 h1
    refine ⟨h3, ?_⟩
    change ((s.click B frames c).1.clicks B frames l).step = _
    rw [h4, h2, Spec.updates, Nat.add_assoc]

/-- C97, exception: none of the three pattern buttons sets the step counter to 0. -/
theorem step_reset_refuted (B : Backend σ K) (frames : Nat) (s : Page σ K) (h : 0 < s.step) :
    (s.click B frames .this).1.step ≠ 0 ∧ (s.click B frames .next).1.step ≠ 0 ∧
      (s.click B frames .prev).1.step ≠ 0 := by
  have h1 := (this_sameClock B s).1
  have h2 := (next_sameClock B frames s).1
  have h3 := (prev_sameClock B frames s).1
  refine ⟨?_, ?_, ?_⟩
  · change (s.resetThis B).1.step ≠ 0; omega
  · change (s.resetNext B frames).1.step ≠ 0; omega
  · change (s.resetPrev B frames).1.step ≠ 0; omega

/-! ## What is on the screen -/

/-- C97: a caption only ever names a pattern of the index; so a pattern that was lost is never
shown again. -/
theorem caption_from_index (B : Backend σ K) (frames : Nat) (l : List Click) (s : Page σ K) :
    (s.clicks B frames l).caption = s.caption ∨
      ∃ n ∈ s.index, (s.clicks B frames l).caption = "alias: ".toList ++ n := by
  have hthis : ∀ s : Page σ K, (s.resetThis B).1.caption = s.caption ∨
      ∃ n ∈ s.index, (s.resetThis B).1.caption = "alias: ".toList ++ n := by
    intro s
    unfold Page.resetThis
    cases hx : s.index.getLast? with
    | none => exact Or.inl rfl
    | some x =>
      dsimp only
      split
      · exact Or.inl rfl
      · rename_i p m hl
        split
        · rename_i s' e hp
          exact Or.inl (put_fails B _ _ x p m e hl hp).2.2.2.1
        · exact Or.inr ⟨x, List.mem_of_getLast? hx, rfl⟩
  have hnext : ∀ (k : Nat) (s : Page σ K), (s.resetNext B k).1.caption = s.caption ∨
      ∃ n ∈ s.index, (s.resetNext B k).1.caption = "alias: ".toList ++ n := by
    intro k
    induction k with
    | zero => intro s; exact Or.inl rfl
    | succ k ih =>
      intro s
      rw [Page.resetNext]
      cases hi : s.index with
      | nil => exact Or.inl rfl
      | cons x l =>
        dsimp only
        cases hp : s.present B l x with
        | mk s' r =>
        cases r with
        | error e => exact Or.inl (present_fails B s s' l x e hp).2.2.2.1
        | ok m =>
          obtain ⟨h1, h2⟩ := present_shows B s s' l x m hp
          dsimp only
          split
          · rcases ih s' with h | ⟨n, hn, h⟩
            · exact Or.inr ⟨x, by simp, h.trans h2.caption⟩
            · rw [h1] at hn
              exact Or.inr ⟨n, by simpa [or_comm] using hn, h⟩
          · exact Or.inr ⟨x, by simp, h2.caption⟩
  have hprev : ∀ (k : Nat) (s : Page σ K), (s.resetPrev B k).1.caption = s.caption ∨
      ∃ n ∈ s.index, (s.resetPrev B k).1.caption = "alias: ".toList ++ n := by
    intro k
    induction k with
    | zero => intro s; exact Or.inl rfl
    | succ k ih =>
      intro s
      rw [Page.resetPrev]
      cases hx : s.index.getLast? with
      | none => exact Or.inl rfl
      | some x =>
        dsimp only
        have hsub : ∀ y ∈ x :: s.index.dropLast, y ∈ s.index := by
          intro y hy
          rcases List.mem_cons.1 hy with rfl | hy
          · exact List.mem_of_getLast? hx
          · exact List.mem_of_mem_dropLast hy
        have hy : (x :: s.index.dropLast).getLast?.getD x ∈ s.index := by
          rw [List.getLast?_eq_some_getLast (List.cons_ne_nil x s.index.dropLast)]
          exact hsub _ (List.getLast_mem _)
        cases hp : s.present B (x :: s.index.dropLast).dropLast
          ((x :: s.index.dropLast).getLast?.getD x) with
        | mk s' r =>
        cases r with
        | error e => exact Or.inl (present_fails B s s' _ _ e hp).2.2.2.1
        | ok m =>
          obtain ⟨h1, h2⟩ := present_shows B s s' _ _ m hp
          dsimp only
          split
          · rcases ih s' with h | ⟨n, hn, h⟩
            · exact Or.inr ⟨_, hy, h.trans h2.caption⟩
            · rw [h1] at hn
              rcases List.mem_append.1 hn with hn | hn
              · exact Or.inr ⟨n, hsub n (List.mem_of_mem_dropLast hn), h⟩
              · rw [List.mem_singleton.1 hn] at h
                exact Or.inr ⟨_, hy, h⟩
          · exact Or.inr ⟨_, hy, h2.caption⟩
  have hone : ∀ (s : Page σ K) (c : Click), (s.click B frames c).1.caption = s.caption ∨
      ∃ n ∈ s.index, (s.click B frames c).1.caption = "alias: ".toList ++ n := by
    intro s c
    cases c with
    | go =>
      left
      change s.go.1.caption = _
      unfold Page.go
      split
      · rfl
      · split <;> rfl
    | faster => exact Or.inl (goTwice_keeps _).2.2.1
    | slower => exact Or.inl (goTwice_keeps _).2.2.1
    | prev => exact hprev frames s
    | this => exact hthis s
    | next => exact hnext frames s
    | timer =>
      left
      change (s.fire B).1.caption = _
      unfold Page.fire Page.update
      split
      · rfl
      · split <;> rfl
  induction l generalizing s with
  | nil => exact Or.inl rfl
  | cons c l ih =>
    have hsub : ∀ n ∈ (s.click B frames c).1.index, n ∈ s.index := by
      intro n hn
      rcases click_index B frames s c with h | ⟨_, n', h, _⟩
      · exact h.subset hn
      · exact h.symm.subset (List.mem_cons_of_mem _ hn)
    change ((s.click B frames c).1.clicks B frames l).caption = s.caption ∨
      ∃ n ∈ s.index, ((s.click B frames c).1.clicks B frames l).caption = "alias: ".toList ++ n
    rcases ih (s.click B frames c).1 with h | ⟨n, hn, h⟩
    · rw [h]; exact hone s c
    · exact Or.inr ⟨n, hsub n hn, h⟩

/-- Every cell of the grid and of the picture has the property. -/
def Spec.AllCells (P : K → Prop) (s : Page σ K) : Prop :=
  (∀ i j, P (s.grid i j)) ∧ ∀ i j, P (s.image i j)

theorem paste_all (P : K → Prop) (h0 : P 0) (p : Cells K) (hp : ∀ a b i j, P (p.cell a b i j))
    (g : PageGrid K) (hg : paste p = .ok g) (i j : Fin 96) : P (g i j) := by
  unfold paste at hg
  split at hg
  all_goals try cases hg
  split at hg
  · cases hg
    dsimp only
    split
    · exact hp ..
    · exact h0
  · cases hg

/-- C97: what holds of 0, of the cells of every stored pattern, and is kept by a step of the
automaton, holds of everything that is ever computed or shown. -/
theorem session_cells (B : Backend σ K) (frames : Nat) (P : K → Prop) (h0 : P 0)
    (hB : ∀ n p m, load B.dir n = .ok (p, m) → ∀ a b i j, P (p.cell a b i j))
    (hcall : ∀ c g g' c', B.call c g = .ok (g', c') → (∀ i j, P (g i j)) → ∀ i j, P (g' i j))
    (l : List Click) (s : Page σ K) (hs : Spec.AllCells P s) :
    Spec.AllCells P (s.clicks B frames l) := by
  have hpres : ∀ (s : Page σ K) (l : List Str) (n : Str), Spec.AllCells P s →
      Spec.AllCells P (s.present B l n).1 := by
    intro s l n hs
    unfold Page.present
    split
    · exact ⟨fun _ _ => h0, hs.2⟩
    · rename_i p m hl
      split
      · rename_i s' e hp
        obtain ⟨_, _, h1, _, h2⟩ := put_fails B _ _ n p m e hl hp
        exact ⟨fun i j => by rw [h2]; exact h0, fun i j => by rw [h1]; exact hs.2 i j⟩
      · rename_i s' hp
        obtain ⟨g, hg, rfl⟩ := put_succeeds B _ _ _ _ hp
        have := paste_all P h0 p (hB n p m hl) g hg
        exact ⟨this, this⟩
  have hnext : ∀ (k : Nat) (s : Page σ K), Spec.AllCells P s →
      Spec.AllCells P (s.resetNext B k).1 := by
    intro k
    induction k with
    | zero => intro s hs; exact hs
    | succ k ih =>
      intro s hs
      rw [Page.resetNext]
      split
      · exact ⟨fun _ _ => h0, hs.2⟩
      · rename_i x l _
        have h := hpres s l x hs
        split
        · rename_i hp; rw [hp] at h; exact h
        · rename_i s' m hp
          rw [hp] at h
          split
          · exact ih s' h
          · exact h
  have hprev : ∀ (k : Nat) (s : Page σ K), Spec.AllCells P s →
      Spec.AllCells P (s.resetPrev B k).1 := by
    intro k
    induction k with
    | zero => intro s hs; exact hs
    | succ k ih =>
      intro s hs
      rw [Page.resetPrev]
      split
      · exact ⟨fun _ _ => h0, hs.2⟩
      · rename_i x _
        have h := hpres s (x :: s.index.dropLast).dropLast
          ((x :: s.index.dropLast).getLast?.getD x) hs
        dsimp only
        split
        · rename_i hp; rw [hp] at h; exact h
        · rename_i s' m hp
          rw [hp] at h
          split
          · exact ih s' h
          · exact h
  have hthis : ∀ s : Page σ K, Spec.AllCells P s → Spec.AllCells P (s.resetThis B).1 := by
    intro s hs
    unfold Page.resetThis
    split
    · exact ⟨fun _ _ => h0, hs.2⟩
    · rename_i x _
      split
      · exact ⟨fun _ _ => h0, hs.2⟩
      · rename_i p m hl
        split
        · rename_i s' e hp
          obtain ⟨_, _, h1, _, h2⟩ := put_fails B _ _ x p m e hl hp
          exact ⟨fun i j => by rw [h2]; exact h0, fun i j => by rw [h1]; exact hs.2 i j⟩
        · rename_i s' hp
          obtain ⟨g, hg, rfl⟩ := put_succeeds B _ _ _ _ hp
          have := paste_all P h0 p (hB x p m hl) g hg
          exact ⟨this, this⟩
  have htwice : ∀ s : Page σ K, Spec.AllCells P s → Spec.AllCells P s.goTwice.1 := by
    intro s hs
    obtain ⟨_, _, _, h1, h2, _⟩ := goTwice_keeps s
    exact ⟨fun i j => by rw [h1]; exact hs.1 i j, fun i j => by rw [h2]; exact hs.2 i j⟩
  have hone : ∀ (s : Page σ K) (c : Click), Spec.AllCells P s →
      Spec.AllCells P (s.click B frames c).1 := by
    intro s c hs
    cases c with
    | go =>
      change Spec.AllCells P s.go.1
      unfold Page.go
      split
      · exact hs
      · split <;> exact hs
    | faster => exact htwice _ hs
    | slower => exact htwice _ hs
    | prev => exact hprev frames s hs
    | this => exact hthis s hs
    | next => exact hnext frames s hs
    | timer =>
      change Spec.AllCells P (s.fire B).1
      unfold Page.fire Page.update
      split
      · exact hs
      · split
        · exact hs
        · rename_i g c hc
          have := hcall _ _ _ _ hc hs.1
          exact ⟨this, this⟩
  induction l generalizing s with
  | nil => exact hs
  | cons c l ih => exact ih _ (hone s c hs)

/-- C97: the page opens with the last pattern of the index (of the shipped ones `wobbler000`), not
with the orbium it has loaded; paused, with a period of 512 milliseconds and the counter at 0. -/
theorem start_shows (B : Backend σ K) (l : List Str) (x : Str) (ca : σ)
    (hf : Spec.Showable B "orbium_orbium000".toList) (hx : Spec.Showable B x) :
    ∃ s₀ s : Page σ K, Page.start B (l ++ [x]) ca = .ok s ∧ s.index = l ++ [x] ∧
      Spec.ShowsNow B s₀ s x ∧ Spec.Clock s ∧ s.running = false ∧ s.period = 512 ∧ s.step = 0 := by
  obtain ⟨p, m, g, hg⟩ := hf
  have hr := hg.restores ca
  obtain ⟨s, h1, h2, h3⟩ := this_shows B
    ({ index := l ++ [x], ca := (B.restore ca m.caConfig).1, grid := g, image := g, step := 0
       period := 512, running := false, callbacks := [], caption := [], config := [], entry := []
       git := [], message := none } : Page σ K) x l rfl hx
  refine ⟨_, s, ?_, h2, h3, ⟨?_, ⟨9, by omega, by omega, ?_⟩⟩, h3.running, h3.period, h3.step⟩
  · unfold Page.start firstPattern
    rw [hg.loads]
    dsimp only
    rw [hg.pastes]
    dsimp only
    split
    · rename_i he; rw [he] at hr; cases hr
    · rename_i c hc
      rw [hc] at h1
      rw [h1]
  · rw [h3.callbacks, h3.running]; rfl
  · rw [h3.period]; norm_num

/-- The last of the shipped patterns. -/
theorem shipped_last : (updateIndex shippedFiles).getLast? = some "wobbler000".toList := by
  rw [shipped_index]; decide +kernel

/-! ## A library -/

namespace Witness

/-- An array of ones. -/
def ones (h w : Nat) : Cells Nat := { shape := [1, 1, h, w], cell := fun _ _ _ _ => 1 }

/-- A library: two patterns, one without a commit hash and one that is too large. -/
def shelf : Dir (Cells Nat) := fun n =>
  if n = "orbium_orbium000.npy".toList then some (.npy (ones 20 20))
  else if n = "orbium_orbium000.csv".toList then
    some (.text "ca_config,orbium.npy\ncommit_hash,abc\n".toList)
  else if n = "b.npy".toList then some (.npy (ones 3 90))
  else if n = "b.csv".toList then some (.text "ca_config,life.npy\ncommit_hash,abc\n".toList)
  else if n = "c.npy".toList then some (.npy (ones 3 3))
  else if n = "c.csv".toList then some (.text "ca_config,life.npy".toList)
  else if n = "d.npy".toList then some (.npy (ones 91 3))
  else if n = "d.csv".toList then some (.text "ca_config,life.npy\ncommit_hash,abc\n".toList)
  else none

/-- An automaton that keeps the grid and counts. -/
def counting : Backend Nat Nat where
  dir := shelf
  restore c _ := (c, none)
  call c g := .ok (g, c + 1)

theorem orbium_plain : Spec.ShowsPlainly counting "orbium_orbium000".toList := by
  obtain ⟨g, hg⟩ := (paste_ok_iff (ones 20 20)).2 ⟨20, 20, rfl, by omega, by omega⟩
  exact ⟨ones 20 20, ⟨"orbium.npy\n".toList, "none".toList, "abc\n".toList, []⟩, g,
    ⟨by rfl, hg, fun _ => rfl⟩, by decide⟩

theorem b_plain : Spec.ShowsPlainly counting "b".toList := by
  obtain ⟨g, hg⟩ := (paste_ok_iff (ones 3 90)).2 ⟨3, 90, rfl, by omega, by omega⟩
  exact ⟨ones 3 90, ⟨"life.npy\n".toList, "none".toList, "abc\n".toList, []⟩, g,
    ⟨by rfl, hg, fun _ => rfl⟩, by decide⟩

theorem c_over : Spec.PassedOver counting "c".toList := by
  obtain ⟨g, hg⟩ := (paste_ok_iff (ones 3 3)).2 ⟨3, 3, rfl, by omega, by omega⟩
  exact ⟨ones 3 3, ⟨"life.npy".toList, "none".toList, "none".toList, []⟩, g,
    ⟨by rfl, hg, fun _ => rfl⟩, rfl⟩

theorem d_broken : Spec.Broken counting "d".toList := by
  intro p m hl
  have h : load counting.dir "d".toList = .ok (ones 91 3,
    ⟨"life.npy\n".toList, "none".toList, "abc\n".toList, []⟩) := by rfl
  rw [h] at hl
  cases hl
  right
  intro g hg
  obtain ⟨h, w, h1, h2, h3⟩ := (paste_ok_iff (ones 91 3)).1 ⟨g, hg⟩
  simp only [ones, List.cons.injEq, true_and] at h1
  omega

/-- The shipped library with arrays of ones. -/
def shipped : Dir (Cells Nat) := fun n =>
  match shippedZoo.find? fun x => npyName x.1.toList = n with
  | some x => some (.npy { shape := x.2, cell := fun _ _ _ _ => 1 })
  | none => some (.text "ca_config,life.npy\ncommit_hash,abc\n".toList)

theorem shipped_ok : Spec.Shipped shipped := by
  have h1 : ∀ x ∈ shippedZoo, (shippedZoo.find? fun y => npyName y.1.toList = npyName x.1.toList) =
      some x := by decide +kernel
  have h2 : ∀ x ∈ shippedZoo, (shippedZoo.find? fun y => npyName y.1.toList = csvName x.1.toList) =
      none := by decide +kernel
  intro x hx
  refine ⟨{ shape := x.2, cell := fun _ _ _ _ => 1 },
    ⟨"life.npy\n".toList, "none".toList, "abc\n".toList, []⟩, ?_, rfl, by decide⟩
  unfold load shipped
  rw [h1 x hx, h2 x hx]
  rfl

end Witness

/-- A round through the shipped library. -/
example (s : Page Nat Nat) (hi : s.index = updateIndex shippedFiles) :
    (s.clicks { Witness.counting with dir := Witness.shipped } 1000
      (List.replicate 49 .next)).index.length = 37 :=
  (shipped_round { Witness.counting with dir := Witness.shipped } 999 s Witness.shipped_ok
    (fun _ _ => rfl) hi).2

/-- "Next pattern" passes over `c`. -/
example (s : Page Nat Nat) (hi : s.index = ["c".toList, "b".toList, "d".toList]) :
    ∃ s', s.resetNext Witness.counting 1000 = (s', none) ∧
      s'.index = ["d".toList, "c".toList, "b".toList] := by
  obtain ⟨s', h1, h2, _⟩ := next_skips Witness.counting 999 s ["c".toList] "b".toList ["d".toList] hi
    (by intro x hx; rw [List.mem_singleton.1 hx]; exact Witness.c_over) Witness.b_plain (by decide)
  exact ⟨s', h1, h2⟩

/-- "Next pattern" loses `d`. -/
example (s : Page Nat Nat) (hi : s.index = ["d".toList, "b".toList]) :
    (s.resetNext Witness.counting 1000).1.index = ["b".toList] := by
  obtain ⟨e, _, h, _⟩ := broken_next_refuted Witness.counting 999 s _ _ hi Witness.d_broken
  exact h

/-- The hypotheses of the theorems on patterns that are shown, passed over and broken are met, and
a page starts. -/
example : ∃ s₀ s : Page Nat Nat, Page.start Witness.counting
    (["c".toList, "d".toList, "orbium_orbium000".toList] ++ ["b".toList]) 0 = .ok s ∧
    s.index = ["c".toList, "d".toList, "orbium_orbium000".toList] ++ ["b".toList] ∧
    Spec.ShowsNow Witness.counting s₀ s "b".toList ∧ Spec.Clock s ∧ s.running = false ∧
    s.period = 512 ∧ s.step = 0 := by
  obtain ⟨p, m, g, h, _⟩ := Witness.orbium_plain
  obtain ⟨p', m', g', h', _⟩ := Witness.b_plain
  exact start_shows Witness.counting _ _ 0 ⟨p, m, g, h⟩ ⟨p', m', g', h'⟩

end Yuca
