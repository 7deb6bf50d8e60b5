import Verif.Lemmas.MACE.Adjoint

/-! # Stage lemmas: `compute_Phi1`, `reverse_Phi1` -/

namespace Verif.MACE
open Verif.Spec Verif.Blas

variable {K : Type} [Field K] {P : Params K} {W : Net K} {g : Graph K} {nT nP NH : ℕ} {c : Conf K} {n : ℕ → ℕ}

/-- `cgPass` on row-major buffers. -/
theorem cgPass_spec {C N m nd ns : ℕ} {cg : List K} {di si : List ℕ} {D S : ℕ → ℕ} {cc : ℕ → K} (hm : cg.length = m)
    (hd : ∀ p < m, di[p]? = some (D p)) (hdl : ∀ p < m, D p < nd) (hs : ∀ p < m, si[p]? = some (S p))
    (hsl : ∀ p < m, S p < ns) (hc : ∀ p < m, cg[p]? = some (cc p)) (f : ℕ → ℕ → ℕ → K) :
    cgPass C N cg nd ns di si (T3 N ns C f) (List.replicate (N * nd * C) 0)
      = some (T3 N nd C (fun i o k => ∑ p ∈ Finset.range m, if D p = o then cc p * f i (S p) k else 0)) := by
  unfold cgPass
  rw [hm]
  have h1 : Adds (N * nd * C) (loop N (fun i => loop m (fun p d => (di[p]?).bind (fun a => (cg[p]?).bind (fun c =>
      (si[p]?).bind (fun b => loop C (fun k d => ((T3 N ns C f)[i * ns * C + b * C + k]?).bind (fun x =>
        ad d (i * nd * C + a * C + k) (c * x))) d))))))
      (fun q => ∑ i ∈ Finset.range N, ∑ p ∈ Finset.range m, ∑ k ∈ Finset.range C,
        if q = (i * nd + D p) * C + k then cc p * f i (S p) k else 0) := by
    refine Adds.loop (fun i hi => Adds.loop (fun p hp => Adds.bindRead (hd p hp) (Adds.bindRead (hc p hp)
      (Adds.bindRead (hs p hp) (Adds.loop (fun k hk => ?_))))))
    have e1 : i * ns * C + S p * C + k = (i * ns + S p) * C + k := by ring
    have e2 : i * nd * C + D p * C + k = (i * nd + D p) * C + k := by ring
    refine Adds.bindRead (by rw [e1]; exact T3_get f hi (hsl p hp) hk) ?_
    rw [e2]
    exact Adds.ad (flat3_lt hi (hdl p hp) hk) _
  refine h1.zero.trans ?_
  congr 1
  apply tab_eq_T3
  intro i0 hi0 o0 ho0 k0 hk0
  rw [Finset.sum_eq_single i0]
  · refine Finset.sum_congr rfl (fun p hp => ?_)
    rw [sum_row_single (hdl p (Finset.mem_range.mp hp)) ho0 hk0]
    simp [eq_comm]
  · intro i hi hne
    refine Finset.sum_eq_zero (fun p hp => ?_)
    rw [sum_row_single (hdl p (Finset.mem_range.mp hp)) ho0 hk0, if_neg (by rintro ⟨rfl, _⟩; exact hne rfl)]
  · intro h; exact absurd (Finset.mem_range.mpr hi0) h

variable {X : ℕ → ℕ → K} {R : ℕ → K}

theorem phi1Edge_adds (hw : WOk P W nT nP) (hg : GOk g nT NH c n X R) {s : State K} {H : ℕ → ℕ → ℕ → K}
    (hY : s.Y = tab2 g.Ex W.M c.Y) (hR : Rows g nP W.C s.R1 c.R1) (hH : s.H1 = T3 NH W.LM W.C H)
    {i e : ℕ} (hi : i < g.N) (he : e < g.E) :
    Adds (g.N * W.nQ * W.C) (phi1Edge P g s i e) (fun p => ∑ q ∈ Finset.range W.nQ, ∑ k ∈ Finset.range W.C,
      if p = (i * W.nQ + q) * W.C + k then c.R1 e (W.qp q) k * c.Y e (W.q1 q) * H (c.nbr e) (W.q2 q) k else 0) := by
  obtain ⟨s0, hs0, hS⟩ := hw.spl1
  unfold phi1Edge
  refine Adds.bindRead hs0 (Adds.bindRead (hg.idx e he) (Adds.of_eq ?_ (fun b _ => hw.triple _ b)))
  rw [hw.C, hw.M, hw.LM, hw.nQ, hS, hY, hH]
  refine Adds.loop (fun q hq => ?_)
  refine Adds.bindRead (getElem?_tab2 (hg.ltx he) (hw.q1_lt q hq)) (Adds.loop (fun k hk => ?_))
  have e1 : e * (nP * W.C) + W.qp q * W.C + k = (e * nP + W.qp q) * W.C + k := by ring
  have e2 : c.nbr e * W.LM * W.C + W.q2 q * W.C + k = (c.nbr e * W.LM + W.q2 q) * W.C + k := by ring
  have e3 : i * W.nQ * W.C + q * W.C + k = (i * W.nQ + q) * W.C + k := by ring
  refine Adds.bindRead (by rw [e1]; exact hR e he _ (hw.qp_lt q hq) k hk)
    (Adds.bindRead (by rw [e2]; exact T3_get _ (hg.nbr_lt e he) (hw.q2_lt q hq) hk) ?_)
  rw [e3]
  exact Adds.ad (flat3_lt hi hq hk) _

theorem computePhi1_spec (hw : WOk P W nT nP) (hg : GOk g nT NH c n X R) {s : State K} {H : ℕ → ℕ → ℕ → K}
    (hY : 0 < g.E → s.Y = tab2 g.Ex W.M c.Y) (hR : Rows g nP W.C s.R1 c.R1) (hH : s.H1 = T3 NH W.LM W.C H) :
    computePhi1 P g s = some { s with Phi1r := T3 g.N W.nQ W.C (phi1r W c H), Phi1 := T3 g.N W.nOut W.C (phi1 W c H) } := by
  unfold computePhi1
  have h1 := nodeEdges_adds (N := g.N) (L := g.N * W.nQ * W.C) (nn := g.nn) (n := n) hg.nn (body := phi1Edge P g s)
    (fun i hi e he => phi1Edge_adds hw hg (hY (Nat.zero_lt_of_lt (hg.lt hi he))) hR hH hi (hg.lt hi he)) (List.replicate (g.N * W.nQ * W.C) 0) (by simp)
  rw [replicate_mapIdx_add] at h1
  have h2 : tab (g.N * W.nQ * W.C) (fun p => ∑ i ∈ Finset.range g.N, ∑ e ∈ edges g.nn i, ∑ q ∈ Finset.range W.nQ,
      ∑ k ∈ Finset.range W.C, if p = (i * W.nQ + q) * W.C + k then
        c.R1 e (W.qp q) k * c.Y e (W.q1 q) * H (c.nbr e) (W.q2 q) k else 0) = T3 g.N W.nQ W.C (phi1r W c H) := by
    apply tab_eq_T3
    intro i0 hi0 q0 hq0 k0 hk0
    rw [Finset.sum_eq_single i0]
    · unfold phi1r
      rw [hg.edg i0 hi0]
      refine Finset.sum_congr rfl (fun e _ => ?_)
      rw [Finset.sum_eq_single q0]
      · rw [sum_row_single hq0 hq0 hk0]; simp
      · intro q hq hne
        rw [sum_row_single (Finset.mem_range.mp hq) hq0 hk0, if_neg (by rintro ⟨_, rfl⟩; exact hne rfl)]
      · intro h; exact absurd (Finset.mem_range.mpr hq0) h
    · intro i hi hne
      refine Finset.sum_eq_zero (fun e _ => Finset.sum_eq_zero (fun q hq => ?_))
      rw [sum_row_single (Finset.mem_range.mp hq) hq0 hk0, if_neg (by rintro ⟨rfl, _⟩; exact hne rfl)]
    · intro h; exact absurd (Finset.mem_range.mpr hi0) h
  rw [h2] at h1
  rw [hw.nQ, hw.C, hw.nOut]
  refine (bind_of_some h1 _).trans ((bind_of_some (cgPass_spec hw.ncg hw.cgOut hw.cgOut_lt hw.cgIn hw.cgIn_lt hw.cgC _) _).trans rfl)

theorem phi1Force_adds {d : DConf K} (hw : WOk P W nT nP) (hg : GOk g nT NH c n d.X d.R) {s : State K}
    {H Dr : ℕ → ℕ → ℕ → K} (hY : s.Y = tab2 g.Ex W.M c.Y) (hYg : s.Yg = T3 g.Ex 3 W.M d.dY)
    (hR : Rows g nP W.C s.R1 c.R1) (hRd : Rows g nP W.C s.R1d d.dR1) (hH : s.H1 = T3 NH W.LM W.C H)
    {i e : ℕ} (hi : i < g.N) (he : e < g.E) :
    Adds (g.Ex * 3) (phi1Force P g s (T3 g.N W.nQ W.C Dr) i e)
      (fun p => ∑ a ∈ Finset.range 3, if p = e * 3 + a then force1 W c d H Dr i e a else 0) := by
  obtain ⟨s0, hs0, hS⟩ := hw.spl1
  unfold phi1Force
  refine Adds.bindRead hs0 (Adds.bindRead (hg.idx e he) (Adds.bindRead (hg.r_get he)
    (Adds.of_eq ?_ (fun b _ => hw.triple _ b))))
  rw [hw.C, hw.M, hw.LM, hw.nQ, hS, hY, hYg, hH]
  refine Adds.congr (Adds.loop (d := fun q p => ∑ k ∈ Finset.range W.C, ∑ a ∈ Finset.range 3, if p = e * 3 + a then
    forceTerm (Dr i q k) (d.X e a) (d.R e) (d.dR1 e (W.qp q) k) (c.Y e (W.q1 q)) (H (c.nbr e) (W.q2 q) k)
      (c.R1 e (W.qp q) k) (d.dY e a (W.q1 q)) else 0) (fun q hq => ?_)) ?_
  · refine Adds.bindRead (getElem?_tab2 (hg.ltx he) (hw.q1_lt q hq)) (Adds.loop (fun k hk => Adds.loop (fun a ha => ?_)))
    have e1 : e * (nP * W.C) + W.qp q * W.C + k = (e * nP + W.qp q) * W.C + k := by ring
    have e2 : c.nbr e * W.LM * W.C + W.q2 q * W.C + k = (c.nbr e * W.LM + W.q2 q) * W.C + k := by ring
    have e3 : i * W.nQ * W.C + q * W.C + k = (i * W.nQ + q) * W.C + k := by ring
    have e4 : e * 3 * W.M + a * W.M + W.q1 q = (e * 3 + a) * W.M + W.q1 q := by ring
    refine Adds.bindRead (by rw [e4]; exact T3_get _ (hg.ltx he) ha (hw.q1_lt q hq)) (Adds.bindRead (hg.xyz_get' he ha)
      (Adds.bindRead (by rw [e1]; exact hR e he _ (hw.qp_lt q hq) k hk)
      (Adds.bindRead (by rw [e1]; exact hRd e he _ (hw.qp_lt q hq) k hk)
      (Adds.bindRead (by rw [e2]; exact T3_get _ (hg.nbr_lt e he) (hw.q2_lt q hq) hk)
      (Adds.bindRead (by rw [e3]; exact T3_get _ hi hq hk) ?_)))))
    rw [mul_comm 3 e]
    exact Adds.ad (flat_lt (hg.ltx he) ha) _
  · intro p hp
    beta_reduce
    unfold force1
    simp_rw [Finset.sum_comm (s := Finset.range W.C) (t := Finset.range 3)]
    rw [Finset.sum_comm]
    refine Finset.sum_congr rfl (fun a _ => ?_)
    by_cases hpa : p = e * 3 + a
    · simp [hpa]
    · simp [hpa]

theorem phi1Adj_adds (hw : WOk P W nT nP) (hg : GOk g nT NH c n X R) {s : State K}
    {Dr : ℕ → ℕ → ℕ → K} (hY : s.Y = tab2 g.Ex W.M c.Y) (hR : Rows g nP W.C s.R1 c.R1)
    {i e : ℕ} (hi : i < g.N) (he : e < g.E) :
    Adds (NH * W.LM * W.C) (phi1Adj P g s (T3 g.N W.nQ W.C Dr) i e)
      (fun p => ∑ q ∈ Finset.range W.nQ, ∑ k ∈ Finset.range W.C,
        if p = (c.nbr e * W.LM + W.q2 q) * W.C + k then c.R1 e (W.qp q) k * c.Y e (W.q1 q) * Dr i q k else 0) := by
  obtain ⟨s0, hs0, hS⟩ := hw.spl1
  unfold phi1Adj
  refine Adds.bindRead hs0 (Adds.bindRead (hg.idx e he) (Adds.of_eq ?_ (fun b _ => hw.triple _ b)))
  rw [hw.C, hw.M, hw.LM, hw.nQ, hS, hY]
  refine Adds.loop (fun q hq => Adds.loop (fun k hk => ?_))
  have e1 : e * (nP * W.C) + W.qp q * W.C + k = (e * nP + W.qp q) * W.C + k := by ring
  have e2 : c.nbr e * W.LM * W.C + W.q2 q * W.C + k = (c.nbr e * W.LM + W.q2 q) * W.C + k := by ring
  have e3 : i * W.nQ * W.C + q * W.C + k = (i * W.nQ + q) * W.C + k := by ring
  refine Adds.bindRead (by rw [e1]; exact hR e he _ (hw.qp_lt q hq) k hk)
    (Adds.bindRead (getElem?_tab2 (hg.ltx he) (hw.q1_lt q hq))
    (Adds.bindRead (by rw [e3]; exact T3_get _ hi hq hk) ?_))
  rw [e2]
  exact Adds.ad (flat3_lt (hg.nbr_lt e he) (hw.q2_lt q hq) hk) _

theorem resize_eq {b : List K} {m : ℕ} (h : b.length = m) : resize b m = b := by
  unfold resize; simp [← h]

/-- `reverse_Phi1` with `zero_dxyz = zero_H1_adj = false`. -/
theorem reversePhi1_spec {d : DConf K} (hw : WOk P W nT nP) (hg : GOk g nT NH c n d.X d.R) {s : State K}
    {H D Ha pr : ℕ → ℕ → ℕ → K} {F : ℕ → ℕ → K} (hY : 0 < g.E → s.Y = tab2 g.Ex W.M c.Y) (hYg : 0 < g.E → s.Yg = T3 g.Ex 3 W.M d.dY)
    (hR : Rows g nP W.C s.R1 c.R1) (hRd : Rows g nP W.C s.R1d d.dR1) (hH : s.H1 = T3 NH W.LM W.C H)
    (hP : s.Phi1r = T3 g.N W.nQ W.C pr) (hD : s.dPhi1 = T3 g.N W.nOut W.C D)
    (zf zh : Bool) (hF : (zf = true ∧ F = fun _ _ => 0) ∨ (zf = false ∧ s.nodeForces = tab2 g.Ex 3 F))
    (hHa : (zh = true ∧ Ha = fun _ _ _ => 0) ∨ (zh = false ∧ s.H1a = T3 NH W.LM W.C Ha)) :
    reversePhi1 P g zf zh s = some { s with
      dPhi1r := T3 g.N W.nQ W.C (dphi1r W D)
      nodeForces := tab2 g.Ex 3 (fun e a => F e a + onE g.nn g.N (force1 W c d H (dphi1r W D)) e a)
      H1a := T3 NH W.LM W.C (fun v LM k => Ha v LM k + adj1 W c g.N (dphi1r W D) v LM k) } := by
  unfold reversePhi1
  have h0 : cgPass P.C g.N P.cg P.numLelm P.numLme P.philelm P.philme s.dPhi1 (List.replicate s.Phi1r.length 0)
      = some (T3 g.N W.nQ W.C (dphi1r W D)) := by
    rw [hw.C, hw.nQ, hw.nOut, hD, hP, length_T3]
    exact cgPass_spec hw.ncg hw.cgIn hw.cgIn_lt hw.cgOut hw.cgOut_lt hw.cgC _
  have hF0 : (if zf = true then List.replicate (resize s.nodeForces g.xyz.length).length 0
      else resize s.nodeForces g.xyz.length) = tab2 g.Ex 3 F := by
    rcases hF with ⟨rfl, rfl⟩ | ⟨rfl, h⟩
    · rw [if_pos rfl, length_resize, hg.xyz_len, replicate_eq_tab]; rfl
    · rw [if_neg (by simp), h, resize_eq (by rw [hg.xyz_len]; simp)]
  have hH0 : (if zh = true then List.replicate (resize s.H1a s.H1.length).length 0
      else resize s.H1a s.H1.length) = T3 NH W.LM W.C Ha := by
    rcases hHa with ⟨rfl, rfl⟩ | ⟨rfl, h⟩
    · rw [if_pos rfl, length_resize, hH, length_T3, replicate_eq_tab]; rfl
    · rw [if_neg (by simp), h, resize_eq (by rw [hH]; simp)]
  have h1 := nodeEdges_forces (N := g.N) (nn := g.nn) (n := n) hg.nn (Ex := g.Ex) hg.le
    (body := phi1Force P g s (T3 g.N W.nQ W.C (dphi1r W D))) (v := force1 W c d H (dphi1r W D))
    (fun i hi e he => phi1Force_adds hw hg (hY (Nat.zero_lt_of_lt (hg.lt hi he))) (hYg (Nat.zero_lt_of_lt (hg.lt hi he))) hR hRd hH hi (hg.lt hi he)) F
  have h2 := nodeEdges_adds (N := g.N) (L := NH * W.LM * W.C) (nn := g.nn) (n := n) hg.nn
    (body := phi1Adj P g s (T3 g.N W.nQ W.C (dphi1r W D)))
    (fun i hi e he => phi1Adj_adds hw hg (hY (Nat.zero_lt_of_lt (hg.lt hi he))) hR hi (hg.lt hi he)) (T3 NH W.LM W.C Ha) (by simp)
  have h3 : (T3 NH W.LM W.C Ha).mapIdx (fun p x => x + ∑ i ∈ Finset.range g.N, ∑ e ∈ edges g.nn i,
      ∑ q ∈ Finset.range W.nQ, ∑ k ∈ Finset.range W.C, if p = (c.nbr e * W.LM + W.q2 q) * W.C + k then
        c.R1 e (W.qp q) k * c.Y e (W.q1 q) * dphi1r W D i q k else 0)
      = T3 NH W.LM W.C (fun v LM k => Ha v LM k + adj1 W c g.N (dphi1r W D) v LM k) := by
    unfold T3
    rw [tab_mapIdx]
    apply tab_eq_T3
    intro v0 hv0 L0 hL0 k0 hk0
    rw [dec3_flat _ hL0 hk0]
    congr 1
    unfold adj1
    refine Finset.sum_congr rfl (fun i hi => ?_)
    rw [hg.edg i (Finset.mem_range.mp hi)]
    refine Finset.sum_congr rfl (fun e he => Finset.sum_congr rfl (fun q hq => ?_))
    rw [sum_row_single (hw.q2_lt q (Finset.mem_range.mp hq)) hL0 hk0]
  rw [h3] at h2
  refine (bind_of_some h0 _).trans ?_
  dsimp only
  rw [hF0, hH0]
  refine (bind_of_some h1 _).trans ?_
  refine (bind_of_some h2 _).trans rfl

end Verif.MACE
