import Verif.Lemmas.MACE.Adjoint

/-! # Stage lemmas: `compute_A0`, `reverse_A0` -/

namespace Verif.MACE
open Verif.Spec Verif.Blas

variable {K : Type} [Field K] {P : Params K} {W : Net K} {g : Graph K} {nT nP NH : ℕ} {c : Conf K} {n : ℕ → ℕ}
  {X : ℕ → ℕ → K} {R : ℕ → K}

theorem phi0Edge_adds (hw : WOk P W nT nP) (hg : GOk g nT NH c n X R) {Y R0 : List K} (hY : Y = tab2 g.Ex W.M c.Y)
    (hR : Rows g (W.lmax + 1) W.C R0 c.R0) {e : ℕ} (he : e < g.E) :
    Adds (W.M * W.C) (phi0Edge P g Y R0 e) (fun p =>
      c.R0 e (Nat.sqrt (p / W.C)) (p % W.C) * c.Y e (p / W.C) * W.emb (c.nty e) (p % W.C)) := by
  subst hY
  unfold phi0Edge
  refine Adds.bindRead (hg.ntypes e he) ?_
  simp only [hw.C, hw.lmax, hw.M]
  refine Adds.congr (Adds.loop (d := fun l p => ∑ mm ∈ Finset.range (2 * l + 1), ∑ k ∈ Finset.range W.C,
    if p = (l * l + mm) * W.C + k then c.R0 e l k * c.Y e (l * l + mm) * W.emb (c.nty e) k else 0) ?_) ?_
  · intro l hl
    refine Adds.loop (fun mm hmm => ?_)
    have hlm : l * l + mm < W.M := lm_lt hl hmm
    refine Adds.bindRead (getElem?_tab2 (hg.ltx he) hlm) (Adds.loop (fun k hk => ?_))
    have e1 : e * (W.lmax + 1) * W.C + l * W.C + k = (e * (W.lmax + 1) + l) * W.C + k := by ring
    refine Adds.bindRead (by rw [e1, hR e he l hl k hk]) (Adds.bindRead (hw.H0w _ (hg.nty_lt e he) k hk) ?_)
    exact Adds.ad (flat_lt hlm hk) _
  · intro p hp
    beta_reduce
    rw [sum_lm W.lmax (fun l lm => ∑ k ∈ Finset.range W.C,
      if p = lm * W.C + k then c.R0 e l k * c.Y e lm * W.emb (c.nty e) k else 0)]
    exact sum_flat_single hp (fun lm k => c.R0 e (Nat.sqrt lm) k * c.Y e lm * W.emb (c.nty e) k)

theorem computeA0_spec (hw : WOk P W nT nP) (hg : GOk g nT NH c n X R) {s : State K} (hY : 0 < g.E → s.Y = tab2 g.Ex W.M c.Y)
    (hR : Rows g (W.lmax + 1) W.C s.R0 c.R0) :
    computeA0 P g s = some { s with A0 := T3 g.N W.M W.C (a0 W c) } := by
  unfold computeA0
  simp only [hw.C, hw.M]
  have hphi : ∀ i < g.N, ∀ ij : ℕ, ij = off g.nn i →
      edgesFrom (n i) (phi0Edge P g s.Y s.R0) (ij, List.replicate (W.M * W.C) 0)
        = some (off g.nn (i + 1), tab2 W.M W.C (phi0 W c i)) := by
    rintro i hi _ rfl
    rw [edgesFrom_eq]
    have h1 : Adds (W.M * W.C) (loop (n i) (fun j => phi0Edge P g s.Y s.R0 (off g.nn i + j)))
        (fun p => ∑ j ∈ Finset.range (n i), c.R0 (off g.nn i + j) (Nat.sqrt (p / W.C)) (p % W.C)
          * c.Y (off g.nn i + j) (p / W.C) * W.emb (c.nty (off g.nn i + j)) (p % W.C)) :=
      Adds.loop (fun j hj => 
        have h := hg.lt hi ((mem_edges (hg.nn i hi)).mpr ⟨j, hj, rfl⟩)
        phi0Edge_adds hw hg (hY (Nat.zero_lt_of_lt h)) hR h)
    rw [h1.zero, Option.map_some, off_succ (hg.nn i hi)]
    simp only [Option.some.injEq, Prod.mk.injEq, true_and]
    unfold tab2
    apply tab_congr
    intro p hp
    rw [sum_edges (hg.nn i hi) (fun e => c.R0 e (Nat.sqrt (p / W.C)) (p % W.C) * c.Y e (p / W.C) * W.emb (c.nty e) (p % W.C))]
    unfold phi0
    rw [hg.edg i hi]
  have hrun : ∀ b : List K, b.length = g.N * W.M * W.C →
      loop g.N (fun i A => loop (W.lmax + 1) (fun l A => (g.types[i]?).bind (fun ti => (P.A0w[ti]?).bind (fun Wt =>
        (Wt[l]?).bind (fun w => gemm false false (2 * l + 1) W.C W.C 1 (tab2 W.M W.C (phi0 W c i)) (l * l * W.C) W.C w 0 W.C 0
          ((i * W.M + l * l) * W.C) W.C A)))) A) b = some (T3 g.N W.M W.C (a0 W c)) := by
    intro b hb
    refine lmBlocks_full (L := W.lmax) rfl (fun i hi l hl => ?_) hb
    obtain ⟨Wt, h1, h2⟩ := hw.A0w _ (hg.typ_lt i hi)
    obtain ⟨w, h3, h4⟩ := h2 l hl
    refine Writes.bindRead (hg.types i hi) (Writes.bindRead h1 (Writes.bindRead h3 ?_))
    refine gemm_lm_wr (L := W.lmax) rfl (A := phi0 W c i) (B := W.mix0 (c.typ i) l) hi hl ?_ ?_ ?_
    · intro mm hmm k' hk'
      have : l * l * W.C + (mm * W.C + k') = (l * l + mm) * W.C + k' := by ring
      rw [this]
      exact getElem?_tab2 (lm_lt hl hmm) hk'
    · intro k' hk' k hk
      simpa [mIdx] using h4 k' hk' k hk
    · intro lm k hlm hk
      unfold a0
      rw [hlm]
  have := nodeLoop_eq (N := g.N) (nn := g.nn) (body := fun i (q : ℕ × List K) => (g.nn[i]?).bind (fun n =>
      (edgesFrom n (phi0Edge P g s.Y s.R0) (q.1, List.replicate (W.M * W.C) 0)).bind (fun e =>
        (loop (P.lmax + 1) (fun l A => (g.types[i]?).bind (fun ti => (P.A0w[ti]?).bind (fun Wt =>
        (Wt[l]?).bind (fun w => gemm false false (2 * l + 1) W.C W.C 1 e.2 (l * l * W.C) W.C w 0 W.C 0
          ((i * W.M + l * l) * W.C) W.C A)))) q.2).bind (fun A => pure (e.1, A)))))
    (B := fun i A => loop (W.lmax + 1) (fun l A => (g.types[i]?).bind (fun ti => (P.A0w[ti]?).bind (fun Wt =>
        (Wt[l]?).bind (fun w => gemm false false (2 * l + 1) W.C W.C 1 (tab2 W.M W.C (phi0 W c i)) (l * l * W.C) W.C w 0 W.C 0
          ((i * W.M + l * l) * W.C) W.C A)))) A)
    (fun i hi b => by
      beta_reduce
      rw [hg.nn i hi, Option.bind_some, hphi i hi _ rfl, Option.bind_some, hw.lmax]
      cases loop (W.lmax + 1) _ b <;> rfl)
    (resize s.A0 (g.N * W.M * W.C))
  refine (bind_of_some (a := (off g.nn g.N, T3 g.N W.M W.C (a0 W c))) ?_ _).trans rfl
  refine this.trans ?_
  rw [hrun _ (by simp)]
  rfl

end Verif.MACE

namespace Verif.MACE
open Verif.Spec Verif.Blas

variable {K : Type} [Field K] {P : Params K} {W : Net K} {g : Graph K} {nT nP NH : ℕ} {c : Conf K} {n : ℕ → ℕ}

theorem phi0Force_adds {d : DConf K} (hw : WOk P W nT nP) (hg : GOk g nT NH c n d.X d.R) {s : State K}
    (hY : s.Y = tab2 g.Ex W.M c.Y) (hYg : s.Yg = T3 g.Ex 3 W.M d.dY)
    (hR : Rows g (W.lmax + 1) W.C s.R0 c.R0) (hRd : Rows g (W.lmax + 1) W.C s.R0d d.dR0)
    {A : ℕ → ℕ → ℕ → K} {i e : ℕ} (he : e < g.E) :
    Adds (g.Ex * 3) (phi0Force P g s (tab2 W.M W.C (phi0a W c A i)) e)
      (fun p => ∑ a ∈ Finset.range 3, if p = e * 3 + a then force0 W c d A i e a else 0) := by
  unfold phi0Force
  refine Adds.bindRead (hg.ntypes e he) (Adds.bindRead (hg.r_get he) ?_)
  simp only [hw.C, hw.lmax, hw.M, hY, hYg]
  refine Adds.congr (Adds.loop (d := fun l p => ∑ mm ∈ Finset.range (2 * l + 1), ∑ k ∈ Finset.range W.C,
    ∑ a ∈ Finset.range 3, if p = e * 3 + a then forceTerm (phi0a W c A i (l * l + mm) k) (d.X e a) (d.R e) (d.dR0 e l k)
      (c.Y e (l * l + mm)) (W.emb (c.nty e) k) (c.R0 e l k) (d.dY e a (l * l + mm)) else 0) ?_) ?_
  · intro l hl
    refine Adds.loop (fun mm hmm => ?_)
    have hlm : l * l + mm < W.M := lm_lt hl hmm
    refine Adds.bindRead (getElem?_tab2 (hg.ltx he) hlm) (Adds.loop (fun k hk => Adds.loop (fun a ha => ?_)))
    have e1 : e * (W.lmax + 1) * W.C + l * W.C + k = (e * (W.lmax + 1) + l) * W.C + k := by ring
    have e2 : e * 3 * W.M + a * W.M + (l * l + mm) = (e * 3 + a) * W.M + (l * l + mm) := by ring
    refine Adds.bindRead (by rw [e2, T3_get _ (hg.ltx he) ha hlm]) (Adds.bindRead (hg.xyz_get he ha)
      (Adds.bindRead (by rw [e1, hR e he l hl k hk]) (Adds.bindRead (by rw [e1, hRd e he l hl k hk])
        (Adds.bindRead (hw.H0w _ (hg.nty_lt e he) k hk) (Adds.bindRead (getElem?_tab2 hlm hk) ?_)))))
    exact Adds.ad (flat_lt (hg.ltx he) ha) _
  · intro p hp
    beta_reduce
    rw [sum_lm W.lmax (fun l lm => ∑ k ∈ Finset.range W.C, ∑ a ∈ Finset.range 3, if p = e * 3 + a then
      forceTerm (phi0a W c A i lm k) (d.X e a) (d.R e) (d.dR0 e l k)
      (c.Y e lm) (W.emb (c.nty e) k) (c.R0 e l k) (d.dY e a lm) else 0)]
    unfold force0
    simp_rw [Finset.sum_comm (s := Finset.range W.C) (t := Finset.range 3)]
    rw [Finset.sum_comm]
    refine Finset.sum_congr rfl (fun a _ => ?_)
    by_cases hpa : p = e * 3 + a
    · simp [hpa, Net.M]
    · simp [hpa]

theorem reverseA0_spec {d : DConf K} (hw : WOk P W nT nP) (hg : GOk g nT NH c n d.X d.R) {s : State K}
    (hY : 0 < g.E → s.Y = tab2 g.Ex W.M c.Y) (hYg : 0 < g.E → s.Yg = T3 g.Ex 3 W.M d.dY)
    (hR : Rows g (W.lmax + 1) W.C s.R0 c.R0) (hRd : Rows g (W.lmax + 1) W.C s.R0d d.dR0)
    {A : ℕ → ℕ → ℕ → K} (hA : s.A0a = T3 g.N W.M W.C A) {F : ℕ → ℕ → K} (hF : s.nodeForces = tab2 g.Ex 3 F) :
    reverseA0 P g s = some { s with nodeForces := tab2 g.Ex 3 (fun e a => F e a + onE g.nn g.N (force0 W c d A) e a) } := by
  unfold reverseA0
  have hadj : ∀ i < g.N, loop (W.lmax + 1) (fun l adj => (g.types[i]?).bind (fun ti => (P.A0w[ti]?).bind (fun Wt =>
      (Wt[l]?).bind (fun w => gemm false true (2 * l + 1) W.C W.C 1 s.A0a ((i * W.M + l * l) * W.C) W.C w 0 W.C 0 (l * l * W.C)
        W.C adj)))) (List.replicate (W.M * W.C) 0) = some (tab2 W.M W.C (phi0a W c A i)) := by
    intro i hi
    have := lmBlocks_full (N := 1) (L := W.lmax) (M := W.M) (C := W.C) rfl
      (body := fun _ l adj => (g.types[i]?).bind (fun ti => (P.A0w[ti]?).bind (fun Wt =>
      (Wt[l]?).bind (fun w => gemm false true (2 * l + 1) W.C W.C 1 s.A0a ((i * W.M + l * l) * W.C) W.C w 0 W.C 0 (l * l * W.C)
        W.C adj)))) (f := fun _ => phi0a W c A i) ?_ (b := List.replicate (W.M * W.C) 0) (by simp)
    · rw [loop_succ, loop_zero, Option.bind_some] at this
      rw [this]
      congr 1
      unfold T3 tab2
      rw [one_mul]
      apply tab_congr
      intro p hp
      obtain ⟨lm, k, hlm, hk, rfl⟩ := flat_decomp hp
      have := dec3_flat (M := W.M) (C := W.C) (i := 0) (fun _ => phi0a W c A i) hlm hk
      rw [zero_mul, zero_add] at this
      rw [this, flat_div hk, flat_mod hk]
    · intro i0 hi0 l hl
      obtain rfl : i0 = 0 := by omega
      obtain ⟨Wt, h1, h2⟩ := hw.A0w _ (hg.typ_lt i hi)
      obtain ⟨w, h3, h4⟩ := h2 l hl
      refine Writes.bindRead (hg.types i hi) (Writes.bindRead h1 (Writes.bindRead h3 ?_))
      have := gemm_lm_wr (tb := true) (N := 1) (L := W.lmax) (M := W.M) (C := W.C) (i := 0) (l := l) rfl (a := s.A0a) (w := w)
        (aoff := (i * W.M + l * l) * W.C) (boff := 0) (A := A i) (B := fun k' k => W.mix0 (c.typ i) l k k')
        (f := fun _ => phi0a W c A i) (by omega) hl ?_ ?_ ?_
      · simpa using this
      · intro mm hmm k' hk'
        have : (i * W.M + l * l) * W.C + (mm * W.C + k') = (i * W.M + (l * l + mm)) * W.C + k' := by ring
        rw [this, hA]
        exact T3_get A hi (lm_lt hl hmm) hk'
      · intro k' hk' k hk
        simpa [mIdx] using h4 k hk k' hk'
      · intro lm k hlm hk
        unfold phi0a
        rw [hlm]
  have := nodeEdges_forces (N := g.N) (nn := g.nn) (n := n) hg.nn (Ex := g.Ex) hg.le
    (body := fun i => phi0Force P g s (tab2 W.M W.C (phi0a W c A i))) (v := force0 W c d A)
    (fun i hi e he => phi0Force_adds hw hg (hY (Nat.zero_lt_of_lt (hg.lt hi he))) (hYg (Nat.zero_lt_of_lt (hg.lt hi he))) hR hRd (hg.lt hi he)) F
  refine (bind_of_some (a := (off g.nn g.N, tab2 g.Ex 3 (fun e a => F e a + onE g.nn g.N (force0 W c d A) e a))) ?_ _).trans rfl
  rw [hF, ← this]
  apply loop_congr
  intro i hi q
  simp only [hw.C, hw.M, hw.lmax]
  refine (bind_of_some (hadj i hi) _)

end Verif.MACE
