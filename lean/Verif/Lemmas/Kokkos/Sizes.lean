import Verif.Model.Kokkos.Eval

/-! # The sizes of the outputs of a call of the Kokkos evaluator -/

namespace Verif.Kokkos
open Verif.Par

theorem launch1_ext {K : Type} [AddCommMonoid K] {L : Launcher K} {p : Prog Unit K} {v w : View K} (h : L.launch1 p v = some w) :
    w.ext = v.ext := by
  unfold Launcher.launch1 Launcher.launch at h
  cases hg : L.go p (fun _ => v.data) with
  | none => rw [hg] at h; cases h
  | some r => rw [hg] at h; rw [← Option.some.inj h]

theorem launch2_ext {K : Type} [AddCommMonoid K] {L : Launcher K} {p : Prog Bool K} {v w : View K} {q : View K × View K}
    (h : L.launch2 p v w = some q) : q.1.ext = v.ext ∧ q.2.ext = w.ext := by
  unfold Launcher.launch2 Launcher.launch at h
  cases hg : L.go p (fun b => ((if b then w else v : View K)).data) with
  | none => rw [hg] at h; cases h
  | some r => rw [hg] at h; rw [← Option.some.inj h]; exact ⟨rfl, rfl⟩

section
variable {K : Type} [Field K] [LinearOrder K] [FloorRing K]

theorem readouts_ext {V : Env K} {C N : ℕ} {types : List ℕ} {atomE ro1 : List K} {ex : K → K} {mlp : Percep K}
    {H1 H2 energies H1a H2a ro2 : View K} {nv nd : ℕ → View K} {r : Readouts K}
    (h : computeReadouts V C N types atomE ro1 ex mlp H1 H2 energies H1a H2a ro2 nv nd = some r) : r.energies.ext = energies.ext := by
  unfold computeReadouts at h
  simp only [Option.bind_eq_bind, Option.bind_eq_some_iff] at h
  obtain ⟨e1, h1, q, h2, e, -, e2, h3, t, -, en, -, h4⟩ := h
  rw [← Option.some.inj h4]
  exact (launch1_ext h3).trans ((launch2_ext h2).1.trans (launch1_ext h1))

theorem scaledBwd_ext {V : Env K} {C M : ℕ} {spl : Option (RadialSet K)} {g : MACE.Graph K} {sv sd A forces Aa : View K}
    {q : View K × View K} (h : scaledBwd V C M spl g sv sd A forces Aa = some q) : q.1.ext = forces.ext := by
  unfold scaledBwd at h
  cases spl with
  | none => rw [← Option.some.inj h]
  | some _ =>
    simp only [reverseScaled, Option.bind_eq_bind, Option.bind_eq_some_iff] at h
    obtain ⟨_, -, h⟩ := h
    exact (launch2_ext h).1

theorem reversePhi1_ext {V : Env K} {C M nQ : ℕ} {cg : List K} {t : Tables} {g : MACE.Graph K} {zH : Bool}
    {R1 R1d Y Yg H1 Phi1r dPhi1 dPhi1r forces H1a : View K} {q : View K × View K × View K}
    (h : reversePhi1 V C M nQ cg t g false zH R1 R1d Y Yg H1 Phi1r dPhi1 dPhi1r forces H1a = some q)
    (hx : g.xyz.length ≤ forces.ext.prod) : q.2.1.ext = forces.ext := by
  unfold reversePhi1 at h
  simp only [Option.bind_eq_bind, Option.bind_eq_some_iff] at h
  obtain ⟨_, -, _, -, p, h1, h2⟩ := h
  rw [← Option.some.inj h2]
  refine (launch2_ext h1).1.trans ?_
  simp only [Bool.false_eq_true, if_false]
  rw [if_neg (by omega)]

theorem evalRest_ext {V : Env K} {P : Params K} {g : MACE.Graph K} {energies forces : View K} {s s' : State K}
    (h : evalRest V P g energies forces s = some s') (hx : g.xyz.length ≤ forces.ext.prod) :
    s'.energies.ext = energies.ext ∧ s'.forces.ext = forces.ext := by
  unfold evalRest at h
  iterate 12 obtain ⟨_, -, h⟩ := Option.bind_eq_some_iff.mp h
  obtain ⟨ro, r1, h⟩ := Option.bind_eq_some_iff.mp h
  iterate 2 obtain ⟨_, -, h⟩ := Option.bind_eq_some_iff.mp h
  obtain ⟨f1, r2, h⟩ := Option.bind_eq_some_iff.mp h
  obtain ⟨_, -, h⟩ := Option.bind_eq_some_iff.mp h
  obtain ⟨rp, r3, h⟩ := Option.bind_eq_some_iff.mp h
  iterate 2 obtain ⟨_, -, h⟩ := Option.bind_eq_some_iff.mp h
  obtain ⟨f0, r4, h⟩ := Option.bind_eq_some_iff.mp h
  obtain ⟨fo, r5, h⟩ := Option.bind_eq_some_iff.mp h
  rw [← Option.some.inj h]
  have e1 := scaledBwd_ext r2
  have e2 := reversePhi1_ext r3 (by rw [e1]; exact hx)
  have e3 := scaledBwd_ext r4
  refine ⟨readouts_ext r1, ?_⟩
  simp only [reverseA0, Option.bind_eq_bind, Option.bind_eq_some_iff] at r5
  obtain ⟨_, -, r5⟩ := r5
  exact (launch1_ext r5).trans (e3.trans (e2.trans e1))

end

/-- The outputs keep their size if they are large enough for the current input, else they get its size. -/
theorem compute_ext {V : Env ℝ} {P : Params ℝ} {zbl : Option ZBLModel.ZBL} {g : MACE.Graph ℝ} {s s' : State ℝ}
    (h : compute V P zbl g s = some s') :
    s'.energies.ext = (if s.energies.ext.prod < g.N then [g.N] else s.energies.ext) ∧
      s'.forces.ext = if s.forces.ext.prod < g.xyz.length then [g.xyz.length] else s.forces.ext := by
  unfold compute at h
  simp only [Option.bind_eq_bind, Option.bind_eq_some_iff] at h
  obtain ⟨o, h1, h2⟩ := h
  have st1 : (startOutputs g.N g.xyz.length s.energies s.forces).1.ext
      = if s.energies.ext.prod < g.N then [g.N] else s.energies.ext := by
    unfold startOutputs
    split_ifs <;> rfl
  have st2 : (startOutputs g.N g.xyz.length s.energies s.forces).2.ext
      = if s.forces.ext.prod < g.xyz.length then [g.xyz.length] else s.forces.ext := by
    unfold startOutputs
    split_ifs <;> rfl
  rw [← st1, ← st2]
  have key : o.1.ext = (startOutputs g.N g.xyz.length s.energies s.forces).1.ext ∧
      o.2.ext = (startOutputs g.N g.xyz.length s.energies s.forces).2.ext := by
    cases zbl with
    | none => rw [← Option.some.inj h1]; exact ⟨rfl, rfl⟩
    | some z =>
      simp only [computeZBL, Option.bind_eq_bind, Option.bind_eq_some_iff] at h1
      obtain ⟨_, -, h1⟩ := h1
      exact launch2_ext h1
  rw [← key.1, ← key.2]
  refine evalRest_ext h2 ?_
  rw [key.2, st2]
  split_ifs with hc
  · simp
  · omega

end Verif.Kokkos
