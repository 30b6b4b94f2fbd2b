import Verif.Model.Launch
import Verif.Props.Mpi
import Mathlib.Tactic.IntervalCases

/-!
# Starting a search (C105)
-/

namespace Yuca

/-- The processes of one search: one mantle and the arms `1` to `w - 1`, all of which know that
there are `w` of them. -/
def Spec.team (w : Nat) : List Role := .mantle w :: (List.range' 1 (w - 1)).map (.arm w)

/-- A process that was started from a shell. -/
def Spec.alone (env : Environ) : Proc := ⟨env, 1, 0⟩

/-- A process that was started by an `mpirun` of `n` processes. -/
def Spec.crew (env : Environ) (n : Nat) : List Proc := (List.range n).map fun r => ⟨env, n, r⟩

/-! ## Numbers on the command line -/

theorem digit_read (d : Nat) (h : d < 10) :
    (Nat.digitChar d).isDigit = true ∧ (Nat.digitChar d).toNat - '0'.toNat = d := by
  interval_cases d <;> decide

theorem decimal_isDigit (n : Nat) : ∀ c ∈ decimal n, c.isDigit = true := by
  intro c hc
  unfold decimal at hc
  split at hc
  · simp only [List.mem_singleton] at hc; subst hc; decide
  · simp only [List.mem_map, List.mem_reverse] at hc
    obtain ⟨d, hd, rfl⟩ := hc
    exact (digit_read d (Nat.digits_lt_base (by norm_num) hd)).1

theorem foldl_digits (l : List Nat) (h : ∀ d ∈ l, d < 10) :
    (l.reverse.map Nat.digitChar).foldl (fun n c => 10 * n + (c.toNat - '0'.toNat)) 0
      = Nat.ofDigits 10 l := by
  induction l with
  | nil => rfl
  | cons d l ih =>
    have hd := (digit_read d (h d (by simp))).2
    rw [List.reverse_cons, List.map_append, List.foldl_append, ih fun x hx => h x (by simp [hx])]
    simp only [List.map_cons, List.map_nil, List.foldl_cons, List.foldl_nil, hd,
      Nat.ofDigits_cons]
    omega

/-- `int(str(n)) = n`. -/
theorem readNat_decimal (n : Nat) : readNat (decimal n) = some n := by
  have hne : decimal n ≠ [] := by
    unfold decimal
    split
    · simp
    · rename_i h
      simpa using Nat.digits_ne_nil_iff_ne_zero.mpr h
  unfold readNat
  rw [if_neg hne, if_pos (by rw [List.all_eq_true]; exact decimal_isDigit n)]
  unfold decimal
  split
  · rename_i h; subst h; rfl
  · rw [foldl_digits _ fun d hd => Nat.digits_lt_base (by norm_num) hd, Nat.ofDigits_digits]

/-! ## The command -/

/-- **C105**. The command that a parent runs starts as many processes as there are workers, of one
communicator, with the command line of the parent. -/
theorem launch_command (w : Nat) (exe : Str) (argv : List Str) (env : Environ) :
    mpirun exe env (launchCommand w exe argv) = some (Spec.crew env w, argv) := by
  simp only [launchCommand, mpirun, List.cons_append, List.nil_append, and_self, if_true,
    Int.toNat_natCast, readNat_decimal, Option.map_some]
  rfl

/-- **C105**. What the new processes find in their environment: they are marked as started by MPI
and everything but three variables is inherited. -/
theorem launch_env (e : Environ) :
    childEnv e inMpi = some "1".toList ∧
    childEnv e "MKL_NUM_THREADS".toList = some "1".toList ∧
    ∀ k, k ≠ inMpi → k ≠ "MKL_NUM_THREADS".toList → k ≠ "OMP_NUM_THREAdS".toList →
      childEnv e k = e k := by
  refine ⟨by rw [childEnv, Environ.set, if_pos rfl], ?_, fun k h1 h2 h3 => ?_⟩
  · rw [childEnv, Environ.set, if_neg (by decide), Environ.set, if_neg (by decide), Environ.set,
      if_pos rfl]
  · rw [childEnv, Environ.set, if_neg h1, Environ.set, if_neg h3, Environ.set, if_neg h2]

/-- The number of threads of OpenMP is not limited: the variable is misspelt. -/
theorem launch_threads_refuted (e : Environ) :
    childEnv e "OMP_NUM_THREADS".toList = e "OMP_NUM_THREADS".toList :=
  (launch_env e).2.2 _ (by decide) (by decide) (by decide)

/-! ## The processes -/

theorem fork_child (workers : Int) (exe : Str) (argv : List Str) (p : Proc) (hw : 2 ≤ workers)
    (he : p.env inMpi ≠ none) : mpiFork workers exe argv p = .child p.size p.rank := by
  obtain ⟨v, hv⟩ := Option.ne_none_iff_exists'.mp he
  rw [mpiFork, if_neg (by omega), hv]

theorem fork_parent (w : Nat) (exe : Str) (argv : List Str) (p : Proc) (hw : 2 ≤ w)
    (he : p.env inMpi = none) :
    mpiFork w exe argv p = .parent (launchCommand w exe argv) (childEnv p.env) := by
  rw [mpiFork, if_neg (by omega), he]

theorem crew_roles (workers : Int) (exe : Str) (argv : List Str) (env : Environ) (n : Nat)
    (hw : 2 ≤ workers) (he : env inMpi ≠ none) :
    (Spec.crew env n).map (fun p => (mpiFork workers exe argv p).role) =
      (List.range n).map fun r => if r = 0 then .mantle n else .arm n r := by
  rw [Spec.crew, List.map_map]
  apply List.map_congr_left
  intro r _
  rw [Function.comp_apply, fork_child workers exe argv _ hw he, Fork.role]

theorem team_range (n : Nat) (hn : 1 ≤ n) :
    ((List.range n).map fun r => if r = 0 then Role.mantle n else .arm n r) = Spec.team n := by
  obtain ⟨k, rfl⟩ : ∃ k, n = k + 1 := ⟨n - 1, by omega⟩
  rw [List.range_eq_range', List.range'_succ, List.map_cons, Spec.team]
  simp only [if_true, Nat.add_sub_cancel, Nat.zero_add, List.cons.injEq, true_and]
  apply List.map_congr_left
  intro r hr
  have := (List.mem_range'_1.mp hr).1
  rw [if_neg (by omega)]

theorem mapM_none_below {α β : Type} (ps : List α) (f : α → Option (List β))
    (h : ∀ p ∈ ps, f p = some []) : ps.mapM f = some (ps.map fun _ => []) := by
  induction ps with
  | nil => rfl
  | cons p ps ih =>
    rw [List.mapM_cons, h p (by simp), ih fun q hq => h q (by simp [hq])]
    rfl

theorem flatten_nils {α β : Type} (ps : List α) : (ps.map fun _ => ([] : List β)).flatten = [] := by
  induction ps with
  | nil => rfl
  | cons p ps ih => simp

/-- **C105**. Processes that find themselves in MPI start no others: in a communicator of `n` there
are one mantle and the arms `1` to `n - 1`. -/
theorem crew_started (workers : List Str → Int) (exe : Str) (depth : Nat) (argv : List Str)
    (env : Environ) (n : Nat) (hn : 1 ≤ n) (hw : 2 ≤ workers argv)
    (he : env inMpi ≠ none) :
    started workers exe (depth + 1) argv (Spec.crew env n) = some [Spec.team n] := by
  have hb : ∀ p ∈ Spec.crew env n, (mpiFork (workers argv) exe argv p).below exe
      (fun argv' qs => started workers exe depth argv' qs) = some [] := by
    intro p hp
    obtain ⟨r, _, rfl⟩ := List.mem_map.mp hp
    rw [fork_child _ exe argv _ hw he, Fork.below]
  rw [started, mapM_none_below _ _ hb, Option.map_some, flatten_nils,
    crew_roles _ exe argv env n hw he, team_range n hn]

/-- **C105**. Every process that is not yet in MPI becomes a launcher, and each starts a team of its
own. -/
theorem launchers_started (workers : List Str → Int) (exe : Str) (depth w : Nat) (argv : List Str)
    (ps : List Proc) (hw : workers argv = w) (h2 : 2 ≤ w)
    (he : ∀ p ∈ ps, p.env inMpi = none) :
    started workers exe (depth + 2) argv ps =
      some (ps.map (fun _ => Role.launcher) :: List.replicate ps.length (Spec.team w)) := by
  have hfork : ∀ p ∈ ps, mpiFork (workers argv) exe argv p =
      .parent (launchCommand w exe argv) (childEnv p.env) := by
    intro p hp
    rw [hw]
    exact fork_parent w exe argv p h2 (he p hp)
  have hb : ∀ (qs : List Proc), (∀ p ∈ qs, p ∈ ps) → (qs.mapM fun p =>
      (mpiFork (workers argv) exe argv p).below exe
        fun argv' qs => started workers exe (depth + 1) argv' qs) =
        some (qs.map fun _ => [Spec.team w]) := by
    intro qs
    induction qs with
    | nil => intro _; rfl
    | cons p qs ih =>
      intro hq
      have he' : childEnv p.env inMpi ≠ none := by rw [(launch_env _).1]; simp
      rw [List.mapM_cons, ih fun q hq' => hq q (by simp [hq']), hfork p (hq p (by simp)),
        Fork.below, launch_command]
      simp only [crew_started workers exe depth argv _ w (by omega) (by omega) he']
      rfl
  rw [started, hb ps fun _ h => h, Option.map_some]
  congr 2
  · apply List.map_congr_left
    intro p hp
    rw [hfork p hp]; rfl
  · induction ps with
    | nil => rfl
    | cons p ps ih =>
      simp only [List.map_cons, List.flatten_cons, List.length_cons, List.replicate_succ,
        List.cons_append, List.nil_append, List.cons.injEq, true_and]
      exact ih (fun q hq => he q (by simp [hq])) (fun q hq => hfork q (by simp [hq]))
        fun qs hqs => hb qs fun q hq => List.mem_cons_of_mem _ (hqs q hq)

/-- **C105**. A search with `-w w`, `w ≥ 2`, that is started from a shell: the first process only
launches, and what it launches is one team of `w`. -/
theorem search_started (workers : List Str → Int) (exe : Str) (depth w : Nat) (argv : List Str)
    (env : Environ) (hw : workers argv = w) (h2 : 2 ≤ w) (he : env inMpi = none) :
    started workers exe (depth + 2) argv [Spec.alone env] = some [[.launcher], Spec.team w] :=
  launchers_started workers exe depth w argv [Spec.alone env] hw h2 (by simp [Spec.alone, he])

/-- **C105**. Without workers, or with one, nothing is launched: every process runs the whole search
itself. -/
theorem serial_started (workers : List Str → Int) (exe : Str) (depth : Nat) (argv : List Str)
    (ps : List Proc) (hw : workers argv ≤ 1) :
    started workers exe (depth + 1) argv ps = some [ps.map fun _ => .mantle 0] := by
  rw [started, mapM_none_below _ _ (by intro p _; simp [mpiFork, hw, Fork.below]), Option.map_some,
    flatten_nils]
  simp [mpiFork, hw, Fork.role]

/-! ## What the mantle then does -/

/-- **C105**. A team evaluates a generation as C44 describes: the arms that there are, and no
others, get the agents, and all of them are asked for their answers. -/
theorem team_jobs (pop w : Nat) (h2 : 2 ≤ w) (b : List (List Nat)) (hb : split pop w = .ok b) :
    mantleJobs pop w w = .ok (.parallel ((List.range' 1 (w - 1)).zip b) (List.range' 1 (w - 1))) ∧
    b.length = w - 1 := by
  have h0 : ¬ (w : Int) = 0 := by omega
  have h1 : ¬ (w : Int) - 1 = 0 := by omega
  have hn : ((w : Int) - 1) = ((w - 1 : Nat) : Int) := by omega
  have hb' : splitLoop (pop / (w - 1)) pop (w - 1) (pop % (w - 1)) 0 = b := by
    have : ¬ w - 1 = 0 := by omega
    simpa [split, this] using hb
  refine ⟨?_, by rw [← hb', splitLoop_length]⟩
  rw [mantleJobs, if_neg h0, if_neg h1, if_neg h1]
  have e1 : (Int.tdiv (pop : Int) ((w : Int) - 1)).toNat = pop / (w - 1) := by
    rw [hn, ← Int.ofNat_tdiv, Int.toNat_natCast]
  have e2 : (Int.fmod (pop : Int) ((w : Int) - 1)).toNat = pop % (w - 1) := by
    rw [hn, Int.fmod_eq_emod_of_nonneg _ (Int.natCast_nonneg _), ← Int.natCast_mod,
      Int.toNat_natCast]
  have e3 : ((w : Int) - 1).toNat = w - 1 := by omega
  simp only [e1, e2, e3, hb', lt_irrefl, if_false]

/-- Without workers the one mantle evaluates all agents itself. -/
theorem serial_jobs (pop : Nat) (n : Nat) : mantleJobs pop 0 n = .ok .serial := rfl

/-- **C105**, exception: with `-w 1` the mantle stops in its first generation. -/
theorem one_worker_refuted (pop n : Nat) : mantleJobs pop 1 n = .error .zeroDiv := rfl

/-- **C105**, exception: with a negative number of workers nobody evaluates anything, and the
selection then fails on the empty list of fitness values. -/
theorem negative_workers_refuted (pop : Nat) (workers : Int) (hw : workers < 0) :
    mantleJobs pop workers 0 = .ok (.parallel [] []) ∧
    ∀ ek, 1 ≤ ek → truncation ek [] = .error .index := by
  refine ⟨?_, fun ek h => by simp [truncation]; omega⟩
  have h0 : ¬ workers = 0 := by omega
  have h1 : ¬ workers - 1 = 0 := by omega
  have h2 : (workers - 1).toNat = 0 := by omega
  have h3 : ¬ (0 : Int) < workers := by omega
  simp [mantleJobs, h0, h1, h2, h3, splitLoop]

/-- **C105**, exception: if `IN_MPI` is left over in the environment of the shell, the process is
taken for the root of a team that does not exist, and the mantle stops in its first
generation. -/
theorem stale_mark_refuted (workers : List Str → Int) (exe : Str) (depth : Nat) (argv : List Str)
    (env : Environ) (hw : 2 ≤ workers argv) (he : env inMpi ≠ none) (pop : Nat) :
    started workers exe (depth + 1) argv [Spec.alone env] = some [[.mantle 1]] ∧
    mantleJobs pop (workers argv) 1 = .error .zeroDiv := by
  refine ⟨crew_started workers exe depth argv env 1 le_rfl hw he, ?_⟩
  have h0 : ¬ workers argv = 0 := by omega
  have h1 : ¬ workers argv - 1 = 0 := by omega
  simp [mantleJobs, h0, h1]

/-- **C105**, exception: in a communicator that is smaller than `-w` says, the mantle sends to a
process that does not exist; in a larger one it waits for a process to which it sent nothing. -/
theorem wrong_size_refuted (pop w n : Nat) (h2 : 2 ≤ w) (hn : 2 ≤ n) :
    (n < w → mantleJobs pop w n = .error .runtime) ∧
    (w < n → ∃ sends, mantleJobs pop w n = .ok (.parallel sends (List.range' 1 (n - 1))) ∧
      w ∈ List.range' 1 (n - 1) ∧ ∀ m ∈ sends, m.1 ≠ w) := by
  have h0 : ¬ (w : Int) = 0 := by omega
  have h1 : ¬ (w : Int) - 1 = 0 := by omega
  have hn1 : ¬ (n : Int) - 1 = 0 := by omega
  have e3 : ((w : Int) - 1).toNat = w - 1 := by omega
  constructor
  · intro h
    have : (n : Int) < w := by omega
    rw [mantleJobs, if_neg h0, if_neg h1, if_neg hn1]
    simp only [this, if_true]
  · intro h
    have : ¬ (n : Int) < w := by omega
    rw [mantleJobs, if_neg h0, if_neg h1, if_neg hn1]
    simp only [this, if_false]
    refine ⟨_, rfl, List.mem_range'_1.mpr (by omega), ?_⟩
    intro m hm
    have := List.mem_range'_1.mp (List.of_mem_zip (a := m.1) (b := m.2) hm).1
    omega

/-- **C105**, exception: `mpirun -np n` in front of the command. With `-w` at least 2 every one of
the `n` processes launches a whole search; with `-w 0` or `-w 1` every one of them runs the whole
search as its mantle. -/
theorem started_by_hand_refuted (workers : List Str → Int) (exe : Str) (depth n : Nat)
    (argv : List Str) (env : Environ) (he : env inMpi = none) :
    (∀ w : Nat, workers argv = w → 2 ≤ w →
      started workers exe (depth + 2) argv (Spec.crew env n) =
        some (List.replicate n Role.launcher :: List.replicate n (Spec.team w))) ∧
    (workers argv ≤ 1 →
      started workers exe (depth + 1) argv (Spec.crew env n) =
        some [List.replicate n (.mantle 0)]) := by
  have hc : ∀ x : Role, (Spec.crew env n).map (fun _ => x) = List.replicate n x := by
    intro x; rw [List.map_const']; simp [Spec.crew]
  constructor
  · intro w hw h2
    rw [launchers_started workers exe depth w argv _ hw h2, hc]
    · simp [Spec.crew]
    · intro p hp
      obtain ⟨r, _, rfl⟩ := List.mem_map.mp hp
      exact he
  · intro hw
    rw [serial_started workers exe depth argv _ hw, hc]

/-- A command line of the README, read by a script that knows only `-w`. -/
def sampleArgv : List Str := ["evolve.py".toList, "-w".toList, "4".toList]

/-- The number after `-w`. -/
def sampleWorkers (argv : List Str) : Int :=
  match argv with
  | [_, _, n] => ((readNat n).getD 0 : Nat)
  | _ => 0

example : started sampleWorkers "python".toList 2 sampleArgv [Spec.alone fun _ => none]
    = some [[.launcher], [.mantle 4, .arm 4 1, .arm 4 2, .arm 4 3]] :=
  search_started sampleWorkers "python".toList 0 4 sampleArgv _ rfl (by norm_num) rfl

example : mantleJobs 10 4 4 =
    .ok (.parallel [(1, [0, 1, 2, 3]), (2, [4, 5, 6]), (3, [7, 8, 9])] [1, 2, 3]) := by decide

example : started sampleWorkers "python".toList 2 sampleArgv (Spec.crew (fun _ => none) 2)
    = some [[.launcher, .launcher], Spec.team 4, Spec.team 4] :=
  (started_by_hand_refuted sampleWorkers "python".toList 0 2 sampleArgv _ rfl).1 4 rfl (by norm_num)

example : mantleJobs 10 4 6 = .ok (.parallel [(1, [0, 1, 2]), (2, [3, 4, 5]), (3, [6, 7, 8])]
    [1, 2, 3, 4, 5]) := by decide

end Yuca
