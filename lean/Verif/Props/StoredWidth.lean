import Verif.Props.Stored

/-!
# The arguments of a stored network (C121)
-/

namespace Yuca

/-- C121: the automaton a stored network makes has the arguments of the file: radius, three peaks,
circular padding, one external and one internal channel, and the hidden channels and activation of
the network; the layers it draws have these sizes, and so have the restored ones. -/
theorem stored_net_arguments (disk : Disk) (fuel : Nat) (d : Nat → NCADraws) (w : NCADraws)
    (b : BuiltNCA) (s : StoredNet) (hs : s ∈ storedNets) (h : Nat × ActKind)
    (hh : s.instant = some h) (v : List ℝ) (hv : v.length = s.weights)
    (h1 : w.1.length = h.1 * 2) (h2 : w.2.1.length = h.1 * h.1) (h3 : w.2.2.length = 1 * h.1) :
    ∃ b' o', b.loadRaw (ncaInit disk (fuel + 1) d) w (s.raw v) = some (.ok b') ∧
      b'.kw = ⟨s.radius, 3, .circular, 1, 1, h.1, h.2, none⟩ ∧ b'.obj = some o' ∧
      o'.tensors.map List.length = Spec.shape b'.kw.act b'.kw.ext b'.kw.int b'.kw.hidden := by
  obtain ⟨b', o', _, e, hk, ho, _, hsh, _⟩ :=
    stored_net_loads disk fuel d w b s hs h hh v hv h1 h2 h3
  have hk' : b'.kw = ⟨s.radius, 3, .circular, 1, 1, h.1, h.2, none⟩ := hk
  exact ⟨b', o', e, hk', ho, by rw [hk']; exact hsh⟩

/-- The network of the Orbium: 128 hidden channels. -/
example : ∃ s ∈ storedNets, ∃ h, s.instant = some h ∧ s.file = "neurorbium_a.npy" ∧ h.1 = 128 :=
  ⟨⟨"neurorbium_a.npy", 13, .ring, 16768, some (128, .tanh), some 0.1⟩, by simp [storedNets], _, rfl,
    rfl, rfl⟩

end Yuca
