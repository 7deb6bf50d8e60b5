import Verif.Lemmas.Kokkos.Readout

/-! # Pair repulsion of the Kokkos evaluator -/

namespace Verif.Kokkos
open Par Prog MACE

theorem computeZBL_spec (V : Env ℝ) {g : Graph ℝ} {nT NH : ℕ} {c : Spec.Conf ℝ} {n : ℕ → ℕ} {X : ℕ → ℕ → ℝ} {R : ℕ → ℝ}
    (hg : GOk g nT NH c n X R) {z : ZBLModel.ZBL} {an : List ℕ} {Z : ℕ → ℕ} (hZ : ∀ t < nT, an[t]? = some (Z t)) {pe pd : ℕ → ℕ → ℝ}
    (hpe : ∀ i < g.N, ∀ e ∈ edges g.nn i, z.compute (Z (c.typ i)) (Z (c.nty e)) (R e) = some (pe i e))
    (hpd : ∀ i < g.N, ∀ e ∈ edges g.nn i, z.computeGradient (Z (c.typ i)) (Z (c.nty e)) (R e) = some (pd i e))
    {energies forces : View ℝ} {e0 : ℕ → ℝ} {F : ℕ → ℕ → ℝ} (hE : All energies g.N e0) (hF : Fc forces g.Ex F) :
    ∃ w u, computeZBL V z an g energies forces = some (w, u) ∧
      All w g.N (fun i => e0 i + if i < g.N then ∑ e ∈ edges g.nn i, pe i e else 0) ∧
      Fc u g.Ex (fun e a => F e a + onE g.nn g.N (fun i e a => -(X e a / R e * pd i e)) e a) := by
  unfold computeZBL
  rw [firstNeigh_spec V (nlen hg)]
  simp only [Option.bind_eq_bind, Option.bind_some]
  have hp : ∀ E, Lc E (zblK z an (tab g.N (off g.nn)) g E) (Par.ex g.N fun i => fcells true g.nn (n i) i ∪ {(false, [i])})
      (fun c x => if c.1 then addF g.nn g.N (fun i e a => -(X e a / R e * pd i e)) c.2 x
        else x + d1 (fun i => ∑ e ∈ edges g.nn i, pe i e) c.2) := by
    intro E
    refine Lc.parFor (fun i hi => Lc.opt (both_edges hi (hg.nn i hi)) (Lc.opt (a := Z (c.typ i)) ?_ ?_)) ?_
    · rw [hg.types i hi, Option.bind_some, hZ _ (hg.typ_lt i hi)]
    · dsimp only
      unfold fcells
      refine Lc.reduceWith (V := fun j => [pe i (off g.nn i + j)]) (Q := fun vs c x => x + red 0 vs) (fun j hj f => ?_) ?_
        (fun vs => Lc.plus (fun x => rfl)) ?_ ?_
      · have he := edge_lt hg hi hj
        have hm : off g.nn i + j ∈ edges g.nn i := (mem_edges (hg.nn i hi)).mpr ⟨j, hj, rfl⟩
        obtain ⟨X', hX1, hX2⟩ := edgeVec_eq hg he
        refine Ok.opt (a := ((X', R (off g.nn i + j)), pe i (off g.nn i + j), pd i (off g.nn i + j))) ?_ ?_
        · simp only [Option.bind_eq_bind]
          rw [hg.ntypes _ he, Option.bind_some, hZ _ (hg.nty_lt _ he), Option.bind_some, hX1, Option.bind_some]
          dsimp only
          rw [hpe i hi _ hm, Option.bind_some, hpd i hi _ hm, Option.bind_some]
        · dsimp only
          obtain ⟨v, hv⟩ := Lc.three (E := E) (b := true) (ij := off g.nn i + j)
            (h := fun a w => w - X' a / R (off g.nn i + j) * pd i (off g.nn i + j))
            (q := fun c x => if c.1 then addF g.nn g.N (fun i e a => -(X e a / R e * pd i e)) c.2 x
              else x + d1 (fun i => ∑ e ∈ edges g.nn i, pe i e) c.2) (fun a ha x => by
                show addF g.nn g.N _ [3 * (off g.nn i + j) + a] x = _
                rw [addF_edge hi (hg.nn i hi) hj _ ha, hX2 a ha, sub_eq_add_neg]) f
          exact Ok.seq hv (Ok.ret (fun _ _ => rfl))
      · rintro j hj j' hj' c ⟨a, ha, rfl⟩ ⟨a', ha', h⟩
        simp only [Set.mem_singleton_iff, Prod.mk.injEq, List.cons.injEq, and_true, true_and] at h
        omega
      · rintro j hj c ⟨a, ha, rfl⟩ h
        simp at h
      · rintro c rfl x
        show x + ∑ e ∈ edges g.nn i, pe i e = x + red 0 (tab (n i) _)
        rw [red_tab, ← sum_edges (K := ℝ) (nn := g.nn) (hg.nn i hi) (pe i)]
        rfl
    · rintro i hi i' hi' c (h | rfl) (h' | h')
      · exact fcells_apart hg.nn i hi i' hi' c h h'
      · obtain ⟨j, _, a, _, rfl⟩ := h
        simp at h'
      · obtain ⟨j, _, a, _, h⟩ := h'
        simp at h
      · simpa using h'
  obtain ⟨w, u, h1, ⟨h2, h3⟩, ⟨h4, h5⟩, ⟨h6, h7⟩, h8, h9⟩ := launch2_any V.L (hp _) (v := energies) (w := forces) (by
    rintro c ⟨i, hi, ⟨j, _, a, _, h⟩ | h⟩
    · simp at h
    · cases h; exact ⟨_, hE.has hi⟩) (by
    rintro c ⟨i, hi, h | h⟩
    · obtain ⟨p, hp, h⟩ := (mem_fcells hg.nn).mp ⟨i, hi, h⟩
      cases h
      have := hg.le
      unfold Graph.E at this
      exact ⟨_, All.has hF (by omega)⟩
    · simp at h)
  have key : ∀ p, (true, [p]) ∈ (Par.ex g.N fun i => fcells true g.nn (n i) i ∪ {(false, [i])}) ↔ p < 3 * off g.nn g.N := by
    intro p
    constructor
    · rintro ⟨i, hi, h | h⟩
      · obtain ⟨p', hp', h⟩ := (mem_fcells hg.nn).mp ⟨i, hi, h⟩
        cases h; exact hp'
      · simp at h
    · intro hlt
      obtain ⟨i, hi, h⟩ := (mem_fcells (b := true) hg.nn).mpr ⟨p, hlt, rfl⟩
      exact ⟨i, hi, Or.inl h⟩
  refine ⟨w, u, h1, hE.step h2 h4 (fun i hi => ?_) (fun i hi => ⟨h8 _ ?_, ?_⟩), hF.step hg.le h3 h5 (fun p hp x hx => ?_) (fun p hp => h9 _ ?_)⟩
  · rw [h6 [i] (e0 i) ⟨i, hi, Or.inr rfl⟩ (hE.has hi), if_pos hi]
    rfl
  · rintro ⟨j, hj, ⟨_, _, a, _, h⟩ | h⟩
    · simp at h
    · cases h; omega
  · rw [if_neg (by omega), add_zero]
  · rw [h7 [p] x ((key p).mpr hp) hx]
    rfl
  · rw [key]; exact hp

end Verif.Kokkos
