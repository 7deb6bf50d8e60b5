import Verif.Lemmas.Kokkos.Linear

/-! # Pair features of the second layer -/

namespace Verif.Par
open Prog

variable {ι K : Type} [DecidableEq ι] [AddCommMonoid K] {E : ι → List ℕ} {T R A : Set (ι × List ℕ)} {f g h δ δ2 : ι × List ℕ → K} {w : List K}

/-- Reduction by threads without private cells. -/
theorem Jd.reduce {n : ℕ} {t : ℕ → Prog ι K} {k : List (List K) → Prog ι K} {V : ℕ → List K}
    {δ' : ℕ → ι × List ℕ → K} (ht : ∀ i < n, Jd E (t i) ∅ R A f (V i) f (δ' i)) (hTR : ∀ c ∈ T, c ∉ R) (hTA : ∀ c ∈ T, c ∉ A)
    (hRA : ∀ c ∈ R, c ∉ A) (hkc : ∀ vs, Confined (k vs) (cells E T) (cells E R) (cells E A)) (hk : Jd E (k (tab n V)) T R A f w h δ2)
    (hδ : ∀ c ∈ A, δ c = ∑ i ∈ Finset.range n, δ' i c + δ2 c) : Jd E (.par n t k) T R A f w h δ := by
  refine ⟨⟨⟨fun _ => ∅, cells E R, cells E A, by simp, Set.subset_union_right, Set.subset_union_right, by simp, by simp, by simp,
    cells_disjoint (Set.disjoint_left.mpr hRA), fun i hi => (ht i hi).1.mono (by simp [cells]) le_rfl le_rfl⟩, hkc⟩, fun s m h1 h2 h3 => ?_⟩
  have key : ∀ n' ≤ n, ∃ m', loopV n' (fun i m => run (t i) m) m = some (tab n' V, m') ∧
      (∀ c ∈ A, at? E m' c = some (s c + ∑ i ∈ Finset.range n', δ' i c)) ∧ ∀ c, c ∉ A → at? E m' c = at? E m c := by
    intro n' hn'
    induction n' with
    | zero => exact ⟨m, rfl, fun c hc => by rw [h3 c hc]; simp, fun _ _ => rfl⟩
    | succ n' ih =>
      obtain ⟨m1, e1, e4, e5⟩ := ih (by omega)
      obtain ⟨m2, k1, k2, k3, k4⟩ := (ht n' (by omega)).2 (fun c => s c + ∑ i ∈ Finset.range n', δ' i c) m1 (by simp)
        (fun c hc => by rw [e5 c (hRA c hc), h2 c hc]) e4
      refine ⟨m2, ?_, ?_, ?_⟩
      · rw [loopV_succ, e1, Option.bind_some, k1, Option.map_some]
        simp [tab, List.range_succ]
      · intro c hc
        rw [k3 c hc, Finset.sum_range_succ, add_assoc]
      · intro c hcA
        rw [k4 c (by simp) hcA, e5 c hcA]
  obtain ⟨m1, e1, e4, e5⟩ := key n le_rfl
  obtain ⟨m2, j1, j2, j3, j4⟩ := hk.2 (fun c => s c + ∑ i ∈ Finset.range n, δ' i c) m1
    (fun c hc => by rw [e5 c (hTA c hc), h1 c hc]) (fun c hc => by rw [e5 c (hRA c hc), h2 c hc]) e4
  refine ⟨m2, ?_, j2, fun c hc => ?_, fun c hT hA => by rw [j4 c hT hA, e5 c hA]⟩
  · dsimp only [run]
    rw [e1, Option.bind_some, j1]
  · rw [j3 c hc, hδ c hc, add_assoc]

end Verif.Par

namespace Verif.Kokkos
open Verif.Par Verif.Par.Prog Verif.MACE

variable {K : Type} [Field K] {g : Graph K} {nT NH nP : ℕ} {c : Spec.Conf K} {n : ℕ → ℕ} {X : ℕ → ℕ → K} {R : ℕ → K} {W : Spec.Net K}

/-- The tables of the second layer contain the couplings of `W`. -/
structure TOk (t : Tables) (cg : List K) (W : Spec.Net K) (nP : ℕ) : Prop where
  lm1 : ∀ q < W.nQ, t.lm1[q]? = some (W.q1 q)
  lm2 : ∀ q < W.nQ, t.lm2[q]? = some (W.q2 q)
  lel : ∀ q < W.nQ, t.lel[q]? = some (W.qp q)
  qp_lt : ∀ q < W.nQ, W.qp q < nP
  q1_lt : ∀ q < W.nQ, W.q1 q < W.M
  q2_lt : ∀ q < W.nQ, W.q2 q < W.LM
  ncg : cg.length = W.nCG
  lme : ∀ p < W.nCG, t.lme[p]? = some (W.cgOut p)
  cgOut_lt : ∀ p < W.nCG, W.cgOut p < W.nOut
  lelm : ∀ p < W.nCG, t.lelm[p]? = some (W.cgIn p)
  cgIn_lt : ∀ p < W.nCG, W.cgIn p < W.nQ
  cgC : ∀ p < W.nCG, cg[p]? = some (W.cgC p)

theorem TOk.row {t : Tables} {cg : List K} (h : TOk t cg W nP) {q : ℕ} (hq : q < W.nQ) :
    both t.lm1[q]? (both t.lm2[q]? t.lel[q]?) = some (W.q1 q, W.q2 q, W.qp q) := by
  unfold both
  rw [h.lm1 q hq, h.lm2 q hq, h.lel q hq]
  rfl

/-- Sparse products: row `dst p` of the output receives `co p` times row `fr p` of the input. -/
theorem sparse_lc {E : Unit → List ℕ} {N C nI nO nC : ℕ} {cg : List K} {tab1 tab2 : List ℕ} {co : ℕ → K} {fr dst : ℕ → ℕ} {v : View K}
    {x : ℕ → ℕ → ℕ → K} (hl : cg.length = nC) (hc : ∀ p < nC, cg[p]? = some (co p)) (ht : ∀ p < nC, tab1[p]? = some (dst p))
    (hf : ∀ p < nC, tab2[p]? = some (fr p)) (ht' : ∀ p < nC, dst p < nO) (hf' : ∀ p < nC, fr p < nI) (hx : G3 v N nI C x) :
    Lc E (parFor N (fun i => forP cg.length (fun p => opt cg[p]? (fun c =>
        parFor C (fun k => opt (both tab1[p]? ((tab2[p]?).bind (fun q => v.get [i, q, k]))) (fun e => plus E () [i, e.1, k] (c * e.2)))))))
      (ex N fun i => ex nO fun o => ex C fun k => {((), [i, o, k])})
      (fun c => u3 (fun i o k y => y + ∑ p ∈ Finset.range nC, if dst p = o then co p * x i (fr p) k else 0) c.2) := by
  refine Lc.parFor (fun i hi => Lc.forAdd (δ := fun p c => d3 (fun i o k => if dst p = o then co p * x i (fr p) k else 0) c.2)
    (fun p hp => Lc.opt (hc p (hl ▸ hp)) ?_) ?_) ?_
  · rw [hl] at hp
    refine Lc.frame (D := ex C fun k => {((), [i, dst p, k])}) (Lc.parFor (fun k hk => Lc.opt (a := (dst p, x i (fr p) k)) ?_
      (Lc.plus (fun y => ?_))) ?_) ?_ (fun _ _ _ => rfl) ?_
    · rw [ht p hp, hf p hp]
      unfold both
      rw [Option.bind_some, Option.bind_some, hx i hi _ (hf' p hp) k hk]
      rfl
    · exact congrArg (y + ·) (if_pos rfl)
    · apart
    · rintro c ⟨k, hk, rfl⟩
      exact ⟨_, ht' p hp, k, hk, rfl⟩
    · rintro c ⟨o, ho, k, hk, rfl⟩ hn y
      show y + (if dst p = o then _ else 0) = y
      rw [if_neg, add_zero]
      rintro rfl
      exact hn ⟨k, hk, rfl⟩
  · rintro c ⟨o, ho, k, hk, rfl⟩ y
    rw [hl]
    rfl
  · apart

theorem computePhi1_spec (V : Env K) {t : Tables} {cg : List K} (hT : TOk t cg W nP) (hg : GOk g nT NH c n X R) {R1 Y H1 Phi1r Phi1 : View K}
    {H : ℕ → ℕ → ℕ → K} (hR : GL R1 g.E nP W.C c.R1) (hY : GF Y g.E W.M c.Y) (hH : G3 H1 NH W.LM W.C H)
    (hPr : Room Phi1r [W.nQ, W.C] 0) (hP : Room Phi1 [W.nOut, W.C] 0) :
    ∃ Pr P, computePhi1 V W.C W.M W.nQ W.nOut cg t g R1 Y H1 Phi1r Phi1 = some (Pr, P) ∧ Room Pr [W.nQ, W.C] g.N ∧
      G3 Pr g.N W.nQ W.C (Spec.phi1r W c H) ∧ Room P [W.nOut, W.C] g.N ∧ G3 P g.N W.nOut W.C (Spec.phi1 W c H) := by
  unfold computePhi1
  dsimp only
  rw [firstNeigh_spec V (nlen hg)]
  simp only [Option.bind_eq_bind, Option.bind_some]
  have hr0 := hPr.grow g.N
  have hr := hr0.fill 0
  have hr' := G3.fill hr0
  generalize (grow Phi1r g.N [W.nQ, W.C]).fill 0 = v at *
  have hs0 := hP.grow g.N
  have hs := hs0.fill 0
  have hs' := G3.fill hs0
  generalize (grow Phi1 g.N [W.nOut, W.C]).fill 0 = u at *
  have hq0 : Room (uninit (V.junk 2) [g.N * W.nQ, W.C]) [W.C] (g.N * W.nQ) := Room.uninit _ _ _
  obtain ⟨S, hS⟩ := hq0.get2
  generalize uninit (V.junk 2) [g.N * W.nQ, W.C] = w at *
  let T : ℕ → ℕ → Set (Bool × List ℕ) := fun i q => (ex W.C fun k => {(true, [i * W.nQ + q, k])}) ∪ ex W.C fun k => {(false, [i, q, k])}
  let f : Bool × List ℕ → K := fun c => if c.1 then d2 S c.2 else 0
  let G : Bool × List ℕ → K := fun b => if b.1 then d2 (fun r k => Spec.phi1r W c H (r / W.nQ) (r % W.nQ) k) b.2 else d3 (Spec.phi1r W c H) b.2
  have hp : ∀ E, Ok E (phi1rK W.C W.M W.nQ (tab g.N (off g.nn)) g t R1 Y H1 E) (ex g.N fun i => ex W.nQ fun q => T i q) f [] G := by
    intro E
    refine Ok.parFor2 T (fun _ => Iff.rfl) ?_ (fun i hi q hq => ?_)
    · rintro i hi q hq i' hi' q' hq' b (⟨k, hk, rfl⟩ | ⟨k, hk, rfl⟩) (⟨k', hk', h⟩ | ⟨k', hk', h⟩) <;>
        simp only [Set.mem_singleton_iff, Prod.mk.injEq, List.cons.injEq, and_true, true_and, reduceCtorEq, false_and] at h
      · exact (flat_inj hq hq').mp h.1
      · exact ⟨h.1, h.2.1⟩
    · have hz : Lc E (parFor W.C (fun k => put E true [i * W.nQ + q, k] 0)) (ex W.C fun k => {(true, [i * W.nQ + q, k])}) (fun _ _ => (0 : K)) :=
        Lc.parFor (fun k hk => Lc.put (fun _ => rfl)) (by apart)
      have ha : Lc E (forP (n i) (fun j => parFor W.C (fun k => opt (do
            let R ← R1.get [off g.nn i + j, W.qp q * W.C + k]
            let y ← Y.get [(off g.nn i + j) * W.M + W.q1 q]
            let nb ← g.idx[off g.nn i + j]?
            let h ← H1.get [nb, W.q2 q, k]
            some (R * y * h)) (fun v => plus E true [i * W.nQ + q, k] v)))) (ex W.C fun k => {(true, [i * W.nQ + q, k])})
          (fun b x => x + d2 (fun _ k => Spec.phi1r W c H i q k) b.2) := by
        refine Lc.forAdd (δ := fun j b => d2 (fun _ k => c.R1 (off g.nn i + j) (W.qp q) k * c.Y (off g.nn i + j) (W.q1 q)
          * H (c.nbr (off g.nn i + j)) (W.q2 q) k) b.2) (fun j hj => Lc.parFor (fun k hk => Lc.opt ?_ (Lc.plus (fun x => rfl))) ?_) ?_
        · have he := edge_lt hg hi hj
          rw [hR _ he _ (hT.qp_lt q hq) k hk, hY _ he _ (hT.q1_lt q hq), hg.idx _ he]
          simp only [Option.bind_eq_bind, Option.bind_some]
          rw [hH _ (hg.nbr_lt _ he) _ (hT.q2_lt q hq) k hk]
          rfl
        · apart
        · rintro b ⟨k, hk, rfl⟩ x
          refine congrArg (x + ·) ?_
          show Spec.phi1r W c H i q k = _
          unfold Spec.phi1r
          rw [hg.edg i hi, ← sum_edges (hg.nn i hi)]
          rfl
      obtain ⟨v0, h0⟩ := hz f
      obtain ⟨v1, h1⟩ := ha (fun _ => 0)
      have hfr : ∀ b ∈ T i q, b ∉ (ex W.C fun k => {(true, [i * W.nQ + q, k])} : Set (Bool × List ℕ)) → b.1 = false := by
        rintro b (h | ⟨k, hk, rfl⟩) hn
        · exact absurd h hn
        · rfl
      have hsub : ∀ b ∈ (ex W.C fun k => {(true, [i * W.nQ + q, k])} : Set (Bool × List ℕ)), b.1 = true := by
        rintro b ⟨k, hk, rfl⟩
        rfl
      have k0 := h0.frame (D' := T i q) (f' := f) (g' := fun _ => 0) Set.subset_union_left (fun _ _ => rfl) (fun _ _ => rfl)
        (fun b hb hn => by show 0 = ite _ _ _; rw [hfr b hb hn]; rfl)
      have k1 := h1.frame (D' := T i q) (f' := fun _ => 0) (g' := fun b => if b.1 then d2 (fun _ k => Spec.phi1r W c H i q k) b.2 else 0)
        Set.subset_union_left (fun _ _ => rfl) (fun b hb => by dsimp only; rw [hsub b hb, zero_add]; rfl)
        (fun b hb hn => by rw [hfr b hb hn]; rfl)
      have k2 : Ok E (parFor W.C (fun k => Prog.get E true [i * W.nQ + q, k] (fun v => put E false [i, q, k] v))) (T i q)
          (fun b => if b.1 then d2 (fun _ k => Spec.phi1r W c H i q k) b.2 else 0) [] G := by
        refine Ok.parFor (fun k => {(true, [i * W.nQ + q, k]), (false, [i, q, k])}) (fun b => ?_) (fun k hk k' hk' hne => ?_)
          (fun k hk => ⟨[], ?_⟩)
        · constructor
          · rintro (⟨k, hk, rfl⟩ | ⟨k, hk, rfl⟩)
            · exact ⟨k, hk, Or.inl rfl⟩
            · exact ⟨k, hk, Or.inr rfl⟩
          · rintro ⟨k, hk, rfl | rfl⟩
            · exact Or.inl ⟨k, hk, rfl⟩
            · exact Or.inr ⟨k, hk, rfl⟩
        · refine Set.disjoint_left.mpr ?_
          rintro b (rfl | rfl) (h | h) <;>
            simp only [Set.mem_singleton_iff, Prod.mk.injEq, List.cons.injEq, and_true, true_and, reduceCtorEq, false_and] at h
          · exact hne h
          · exact hne h
        · have hm : (false, [i, q, k]) ∈ ({(true, [i * W.nQ + q, k]), (false, [i, q, k])} : Set (Bool × List ℕ)) := Or.inr rfl
          refine Ok.get (Or.inl rfl) (fun x => Confined.put (fun _ hp => mem_cells hm hp)) (Sp.put hm rfl ?_)
          rintro b (rfl | rfl) hb
          · show Spec.phi1r W c H ((i * W.nQ + q) / W.nQ) ((i * W.nQ + q) % W.nQ) k = Spec.phi1r W c H i q k
            rw [flat_div hq, flat_mod hq]
          · exact absurd rfl hb
      exact ⟨_, Ok.opt (both_edges hi (hg.nn i hi)) (Ok.opt (hT.row hq) (k0.seq (k1.seq k2)))⟩
  obtain ⟨v', w', k1, ⟨k2, k3⟩, ⟨k4, k5⟩, ⟨k6, k7⟩, k8, k9⟩ := launch2_ok V.L (v := v) (w := w) (hp _)
    (fun b hb => by
      obtain ⟨i, hi, q, hq, ⟨k, hk, h⟩ | ⟨k, hk, h⟩⟩ := hb
      · simp at h
      · simp only [Set.mem_singleton_iff, Prod.mk.injEq, true_and] at h
        subst h
        exact hr' i hi q hq k hk)
    (fun b hb => by
      obtain ⟨i, hi, q, hq, ⟨k, hk, h⟩ | ⟨k, hk, h⟩⟩ := hb
      · simp only [Set.mem_singleton_iff, Prod.mk.injEq, true_and] at h
        subst h
        exact hS _ (flat_lt hi hq) k hk
      · simp at h)
  have hv' : G3 v' g.N W.nQ W.C (Spec.phi1r W c H) := fun i hi q hq k hk => k6 _ ⟨i, hi, q, hq, Or.inr ⟨k, hk, rfl⟩⟩
  obtain ⟨u', j1, j2, -, j4⟩ := launch1_box3 V.L (fun E => sparse_lc (E := E) hT.ncg hT.cgC hT.lme hT.lelm hT.cgOut_lt hT.cgIn_lt hv') hs
  refine ⟨v', u', ?_, hr.of_ext k2 (k4 hr.1), hv', j2, (j4 _ hs').congr (fun i _ o _ k _ => by rw [zero_add]; rfl)⟩
  rw [k1, Option.bind_some]
  unfold phi1K
  rw [j1]
  rfl

theorem reversePhi1_spec (V : Env K) {t : Tables} {cg : List K} (hT : TOk t cg W nP) {d : DConf K} (hg : GOk g nT NH c n d.X d.R)
    {R1 R1d Y Yg H1 Phi1r dPhi1 dPhi1r forces H1a : View K} {H : ℕ → ℕ → ℕ → K} {h0 D : ℕ → ℕ → ℕ → K} {F : ℕ → ℕ → K}
    (hR : GL R1 g.E nP W.C c.R1) (hRd : GL R1d g.E nP W.C d.dR1) (hY : GF Y g.E W.M c.Y) (hYg : GD Yg g.E W.M d.dY)
    (hH : G3 H1 NH W.LM W.C H) (hPr : Room Phi1r [W.nQ, W.C] g.N) (hD : G3 dPhi1 g.N W.nOut W.C D) (hDr : Room dPhi1r [W.nQ, W.C] 0)
    (hF : Fc forces g.Ex F) (hHa : Room H1a [W.LM, W.C] NH) (hle : H1.extent 0 ≤ H1a.extent 0) (hHa' : G3 H1a NH W.LM W.C h0) :
    ∃ Dr f' Ha, reversePhi1 V W.C W.M W.nQ cg t g false false R1 R1d Y Yg H1 Phi1r dPhi1 dPhi1r forces H1a = some (Dr, f', Ha) ∧
      Room Dr [W.nQ, W.C] g.N ∧
      Fc f' g.Ex (fun e a => F e a + onE g.nn g.N (force1 W c d H (dphi1r W D)) e a) ∧ Room Ha [W.LM, W.C] NH ∧ Ha.ext = H1a.ext ∧
      G3 Ha NH W.LM W.C (fun v lm k => h0 v lm k + adj1 W c g.N (dphi1r W D) v lm k) := by
  unfold reversePhi1
  dsimp only
  rw [Room.resizeLike hHa hle, firstNeigh_spec V (nlen hg)]
  have hf : (if forces.ext.prod < g.xyz.length then resizeView forces [g.xyz.length] else forces) = forces := by
    refine if_neg ?_
    obtain ⟨_, x, h1, h2, _⟩ := hF
    rw [h1, hg.xyz_len]
    simp
    omega
  rw [hf]
  simp only [Bool.false_eq_true, if_false, Option.bind_eq_bind, Option.bind_some]
  have hr0 := hDr.growLike hPr
  have hr := hr0.fill 0
  have hr' := G3.fill hr0
  generalize (growLike dPhi1r Phi1r).fill 0 = v at *
  obtain ⟨v', j1, j2, -, j4⟩ := launch1_box3 V.L (fun E => sparse_lc (E := E) hT.ncg hT.cgC hT.lelm hT.lme hT.cgIn_lt hT.cgOut_lt hD) hr
  have hv' : G3 v' g.N W.nQ W.C (dphi1r W D) := (j4 _ hr').congr (fun i _ o _ k _ => by rw [zero_add]; rfl)
  unfold reversePhi1K
  rw [j1]
  simp only [Option.bind_some]
  generalize dphi1r W D = Dr at *
  let A : Set (Bool × List ℕ) := ex NH fun u => ex W.LM fun lm => ex W.C fun k => {(true, [u, lm, k])}
  let f : Bool × List ℕ → K := fun c => if c.1 then d3 h0 c.2 else d1 (fun p => F (p / 3) (p % 3)) c.2
  let G : Bool × List ℕ → K := fun b => if b.1 then d3 (fun v lm k => h0 v lm k + adj1 W c g.N Dr v lm k) b.2
    else d1 (fun p => F (p / 3) (p % 3) + onE g.nn g.N (force1 W c d H Dr) (p / 3) (p % 3)) b.2
  let δ : ℕ → ℕ → Bool × List ℕ → K := fun i e b => d3 (fun v lm k => ∑ q ∈ Finset.range W.nQ,
    if v = c.nbr e ∧ lm = W.q2 q then c.R1 e (W.qp q) k * c.Y e (W.q1 q) * Dr i q k else 0) b.2
  have hTA : ∀ i, ∀ b ∈ fcells false g.nn (n i) i, b ∉ A := by
    rintro i b ⟨j, hj, a, ha, rfl⟩ ⟨u, _, lm, _, k, _, h⟩
    simp at h
  have hp : ∀ E, ∃ v, Jd E (reversePhi1rK W.C W.M W.nQ (tab g.N (off g.nn)) g t R1 R1d Y Yg H1 v' E) (ex g.N fun i => fcells false g.nn (n i) i)
      ∅ A f v G (fun b => ∑ i ∈ Finset.range g.N, ∑ j ∈ Finset.range (n i), δ i (off g.nn i + j) b) := by
    intro E
    have thread : ∀ i < g.N, ∃ v, Jd E (opt (both (tab g.N (off g.nn))[i]? g.nn[i]?) (fun n => forP n.2 (fun j =>
        let ij := n.1 + j
        .par W.nQ (fun q => opt (both t.lm1[q]? (both t.lm2[q]? t.lel[q]?)) (fun e =>
            .par W.C (fun k => opt (do
                let Rd ← R1d.get [ij, e.2.2 * W.C + k]
                let nb ← g.idx[ij]?
                let h ← H1.get [nb, e.2.1, k]
                let d ← v'.get [i, q, k]
                let R ← R1.get [ij, e.2.2 * W.C + k]
                let y ← Y.get [ij * W.M + e.1]
                some (nb, R * y * d, [Rd * h * d, R * h * d])) (fun s =>
                  seq (atomic E true [s.1, e.2.1, k] s.2.1) (.ret s.2.2)))
              (fun vs => opt (do
                let xr ← edgeVec g ij
                let y ← Y.get [ij * W.M + e.1]
                let g0 ← Yg.get [3 * ij * W.M + e.1]
                let g1 ← Yg.get [(3 * ij + 1) * W.M + e.1]
                let g2 ← Yg.get [(3 * ij + 2) * W.M + e.1]
                some [red 0 vs * xr.1 0 / xr.2 * y + red 1 vs * g0, red 0 vs * xr.1 1 / xr.2 * y + red 1 vs * g1,
                  red 0 vs * xr.1 2 / xr.2 * y + red 1 vs * g2]) .ret)))
          (fun vs => three E false ij (fun a w => w - red a vs))))) (fcells false g.nn (n i) i) ∅ A f v G
        (fun b => ∑ j ∈ Finset.range (n i), δ i (off g.nn i + j) b) := by
      intro i hi
      let Fj : ℕ → Bool × List ℕ → K := fun J b => f b + d1 (fun p => if p / 3 < off g.nn i + J then onE g.nn g.N (force1 W c d H Dr) (p / 3) (p % 3) else 0) b.2
      have loop : ∃ v, Jd E (forP (n i) (fun j =>
        let ij := off g.nn i + j
        .par W.nQ (fun q => opt (both t.lm1[q]? (both t.lm2[q]? t.lel[q]?)) (fun e =>
            .par W.C (fun k => opt (do
                let Rd ← R1d.get [ij, e.2.2 * W.C + k]
                let nb ← g.idx[ij]?
                let h ← H1.get [nb, e.2.1, k]
                let d ← v'.get [i, q, k]
                let R ← R1.get [ij, e.2.2 * W.C + k]
                let y ← Y.get [ij * W.M + e.1]
                some (nb, R * y * d, [Rd * h * d, R * h * d])) (fun s =>
                  seq (atomic E true [s.1, e.2.1, k] s.2.1) (.ret s.2.2)))
              (fun vs => opt (do
                let xr ← edgeVec g ij
                let y ← Y.get [ij * W.M + e.1]
                let g0 ← Yg.get [3 * ij * W.M + e.1]
                let g1 ← Yg.get [(3 * ij + 1) * W.M + e.1]
                let g2 ← Yg.get [(3 * ij + 2) * W.M + e.1]
                some [red 0 vs * xr.1 0 / xr.2 * y + red 1 vs * g0, red 0 vs * xr.1 1 / xr.2 * y + red 1 vs * g1,
                  red 0 vs * xr.1 2 / xr.2 * y + red 1 vs * g2]) .ret)))
          (fun vs => three E false ij (fun a w => w - red a vs)))) (fcells false g.nn (n i) i) ∅ A (Fj 0) v (Fj (n i))
        (fun b => ∑ j ∈ Finset.range (n i), δ i (off g.nn i + j) b) := by
        refine Jd.forP Fj (δ' := fun j => δ i (off g.nn i + j)) (fun j hj => ?_) (by simp) (by simp) (by simp) (fun _ _ => rfl)
        have he := edge_lt hg hi hj
        dsimp only
        set e := off g.nn i + j with hedef
        obtain ⟨X', hX1, hX2⟩ := edgeVec_eq hg he
        let S : ℕ → K := fun q => ∑ k ∈ Finset.range W.C, d.dR1 e (W.qp q) k * H (c.nbr e) (W.q2 q) k * Dr i q k
        let S' : ℕ → K := fun q => ∑ k ∈ Finset.range W.C, c.R1 e (W.qp q) k * H (c.nbr e) (W.q2 q) k * Dr i q k
        have three_lc : ∀ vs : List (List K), Lc E (three E false e (fun a w => w - red a vs)) (ex 3 fun a => {(false, [3 * e + a])})
            (fun b x => x - d1 (fun p => red (p % 3) vs) b.2) := fun vs => Lc.three (fun a ha x => by
          show x - red ((3 * e + a) % 3) vs = x - red a vs
          rw [show (3 * e + a) % 3 = a by omega])
        have hsub : (ex 3 fun a => {(false, [3 * e + a])} : Set (Bool × List ℕ)) ⊆ fcells false g.nn (n i) i := fun b hb => ⟨j, hj, hb⟩
        obtain ⟨vf, hvf⟩ := three_lc (tab W.nQ fun q => [S q * d.X e 0 / d.R e * c.Y e (W.q1 q) + S' q * d.dY e 0 (W.q1 q),
          S q * d.X e 1 / d.R e * c.Y e (W.q1 q) + S' q * d.dY e 1 (W.q1 q),
          S q * d.X e 2 / d.R e * c.Y e (W.q1 q) + S' q * d.dY e 2 (W.q1 q)]) (Fj j)
        refine ⟨vf, Jd.reduce (δ' := fun q b => d3 (fun v lm k => if v = c.nbr e ∧ lm = W.q2 q then c.R1 e (W.qp q) k * c.Y e (W.q1 q) * Dr i q k else 0) b.2)
          (δ2 := fun _ => 0) (fun q hq => Jd.opt (hT.row hq) ?_) (by simp) (hTA i) (by simp)
          (fun vs => (three_lc vs f).choose_spec.1.mono (cells_mono hsub) (by simp) (by simp))
          (Jd.of_ok (hvf.frame hsub (fun _ _ => rfl) ?_ ?_) (hTA i) (fun _ _ => rfl)) ?_⟩
        · have hval : ∀ k < W.C, (do
                let Rd ← R1d.get [e, W.qp q * W.C + k]
                let nb ← g.idx[e]?
                let h ← H1.get [nb, W.q2 q, k]
                let d ← v'.get [i, q, k]
                let R ← R1.get [e, W.qp q * W.C + k]
                let y ← Y.get [e * W.M + W.q1 q]
                some (nb, R * y * d, [Rd * h * d, R * h * d])) = some (c.nbr e, c.R1 e (W.qp q) k * c.Y e (W.q1 q) * Dr i q k,
                  [d.dR1 e (W.qp q) k * H (c.nbr e) (W.q2 q) k * Dr i q k, c.R1 e (W.qp q) k * H (c.nbr e) (W.q2 q) k * Dr i q k]) := by
            intro k hk
            rw [hRd _ he _ (hT.qp_lt q hq) k hk, hg.idx _ he]
            simp only [Option.bind_eq_bind, Option.bind_some]
            rw [hH _ (hg.nbr_lt _ he) _ (hT.q2_lt q hq) k hk, hv' i hi q hq k hk, hR _ he _ (hT.qp_lt q hq) k hk, hY _ he _ (hT.q1_lt q hq)]
            rfl
          have hfin : ∀ vs : List (List K), (do
                let xr ← edgeVec g e
                let y ← Y.get [e * W.M + W.q1 q]
                let g0 ← Yg.get [3 * e * W.M + W.q1 q]
                let g1 ← Yg.get [(3 * e + 1) * W.M + W.q1 q]
                let g2 ← Yg.get [(3 * e + 2) * W.M + W.q1 q]
                some [red 0 vs * xr.1 0 / xr.2 * y + red 1 vs * g0, red 0 vs * xr.1 1 / xr.2 * y + red 1 vs * g1,
                  red 0 vs * xr.1 2 / xr.2 * y + red 1 vs * g2]) =
              some [red 0 vs * d.X e 0 / d.R e * c.Y e (W.q1 q) + red 1 vs * d.dY e 0 (W.q1 q),
                red 0 vs * d.X e 1 / d.R e * c.Y e (W.q1 q) + red 1 vs * d.dY e 1 (W.q1 q),
                red 0 vs * d.X e 2 / d.R e * c.Y e (W.q1 q) + red 1 vs * d.dY e 2 (W.q1 q)] := by
            intro vs
            have e0 := hYg e he 0 (by omega) _ (hT.q1_lt q hq)
            rw [add_zero] at e0
            rw [hX1, hY _ he _ (hT.q1_lt q hq), e0, hYg e he 1 (by omega) _ (hT.q1_lt q hq), hYg e he 2 (by omega) _ (hT.q1_lt q hq)]
            simp only [Option.bind_eq_bind, Option.bind_some]
            rw [hX2 0 (by omega), hX2 1 (by omega), hX2 2 (by omega)]
          refine Jd.reduce (V := fun k => [d.dR1 e (W.qp q) k * H (c.nbr e) (W.q2 q) k * Dr i q k, c.R1 e (W.qp q) k * H (c.nbr e) (W.q2 q) k * Dr i q k])
            (δ' := fun k b => d3 (fun v lm k' => if v = c.nbr e ∧ lm = W.q2 q ∧ k' = k then c.R1 e (W.qp q) k * c.Y e (W.q1 q) * Dr i q k else 0) b.2)
            (δ2 := fun _ => 0) (fun k hk => Jd.opt (hval k hk) ?_) (by simp) (by simp) (by simp)
            (fun vs => Confined.opt (fun _ _ => trivial)) (Jd.opt (hfin _) ?_) ?_
          · refine Jd.seq (δ2 := fun _ => 0) (Jd.atomic (δ := fun b => d3 (fun v lm k' => if v = c.nbr e ∧ lm = W.q2 q ∧ k' = k then
              c.R1 e (W.qp q) k * c.Y e (W.q1 q) * Dr i q k else 0) b.2) (g := Fj j)
              ⟨_, hg.nbr_lt _ he, _, hT.q2_lt q hq, k, hk, rfl⟩ ?_ ?_ (by simp) (by simp)) (Jd.ret (fun _ _ => rfl) (fun _ _ => rfl)) (by simp) (by simp)
              (by simp) (fun _ _ => (add_zero _).symm)
            · show (if c.nbr e = c.nbr e ∧ W.q2 q = W.q2 q ∧ k = k then _ else (0 : K)) = _
              rw [if_pos ⟨rfl, rfl, rfl⟩]
            · rintro b ⟨u, hu, lm, hlm, k', hk', rfl⟩ hne
              show (if u = c.nbr e ∧ lm = W.q2 q ∧ k' = k then _ else (0 : K)) = 0
              rw [if_neg]
              rintro ⟨rfl, rfl, rfl⟩
              exact hne rfl
          · have : ([red 0 (tab W.C fun k => [d.dR1 e (W.qp q) k * H (c.nbr e) (W.q2 q) k * Dr i q k, c.R1 e (W.qp q) k * H (c.nbr e) (W.q2 q) k * Dr i q k])
                    * d.X e 0 / d.R e * c.Y e (W.q1 q) + red 1 (tab W.C fun k => [d.dR1 e (W.qp q) k * H (c.nbr e) (W.q2 q) k * Dr i q k, c.R1 e (W.qp q) k * H (c.nbr e) (W.q2 q) k * Dr i q k]) * d.dY e 0 (W.q1 q),
                  red 0 (tab W.C fun k => [d.dR1 e (W.qp q) k * H (c.nbr e) (W.q2 q) k * Dr i q k, c.R1 e (W.qp q) k * H (c.nbr e) (W.q2 q) k * Dr i q k])
                    * d.X e 1 / d.R e * c.Y e (W.q1 q) + red 1 (tab W.C fun k => [d.dR1 e (W.qp q) k * H (c.nbr e) (W.q2 q) k * Dr i q k, c.R1 e (W.qp q) k * H (c.nbr e) (W.q2 q) k * Dr i q k]) * d.dY e 1 (W.q1 q),
                  red 0 (tab W.C fun k => [d.dR1 e (W.qp q) k * H (c.nbr e) (W.q2 q) k * Dr i q k, c.R1 e (W.qp q) k * H (c.nbr e) (W.q2 q) k * Dr i q k])
                    * d.X e 2 / d.R e * c.Y e (W.q1 q) + red 1 (tab W.C fun k => [d.dR1 e (W.qp q) k * H (c.nbr e) (W.q2 q) k * Dr i q k, c.R1 e (W.qp q) k * H (c.nbr e) (W.q2 q) k * Dr i q k]) * d.dY e 2 (W.q1 q)] : List K)
                = [S q * d.X e 0 / d.R e * c.Y e (W.q1 q) + S' q * d.dY e 0 (W.q1 q),
                  S q * d.X e 1 / d.R e * c.Y e (W.q1 q) + S' q * d.dY e 1 (W.q1 q),
                  S q * d.X e 2 / d.R e * c.Y e (W.q1 q) + S' q * d.dY e 2 (W.q1 q)] := by
              rw [red_tab, red_tab]
              rfl
            rw [this]
            exact Jd.ret (by simp) (fun _ _ => rfl)
          · rintro b ⟨u, hu, lm, hlm, k', hk', rfl⟩
            show (if u = c.nbr e ∧ lm = W.q2 q then _ else (0 : K))
              = ∑ k ∈ Finset.range W.C, (if u = c.nbr e ∧ lm = W.q2 q ∧ k' = k then c.R1 e (W.qp q) k * c.Y e (W.q1 q) * Dr i q k else 0) + 0
            rw [add_zero]
            by_cases hc : u = c.nbr e ∧ lm = W.q2 q
            · rw [if_pos hc]
              refine ((Finset.sum_eq_single k' ?_ ?_).trans ?_).symm
              · intro k _ hne
                exact if_neg (fun h => hne h.2.2.symm)
              · intro h; exact absurd (Finset.mem_range.mpr hk') h
              · exact if_pos ⟨hc.1, hc.2, rfl⟩
            · rw [if_neg hc]
              exact (Finset.sum_eq_zero (fun k _ => if_neg (fun h => hc ⟨h.1, h.2.1⟩))).symm
        · rintro b ⟨a, ha, rfl⟩
          show f _ + (if (3 * e + a) / 3 < off g.nn i + (j + 1) then onE g.nn g.N (force1 W c d H Dr) ((3 * e + a) / 3) ((3 * e + a) % 3) else 0)
            = f _ + (if (3 * e + a) / 3 < off g.nn i + j then _ else 0) - red ((3 * e + a) % 3) (tab W.nQ _)
          rw [show (3 * e + a) / 3 = e by omega, show (3 * e + a) % 3 = a by omega, if_pos (by omega), if_neg (by omega), add_zero, sub_eq_add_neg,
            hedef, onE_edge hi (hg.nn i hi) hj, ← hedef, red_tab]
          congr 1
          unfold force1
          rw [← Finset.sum_neg_distrib]
          refine Finset.sum_congr rfl (fun q _ => ?_)
          have hterm : ∑ k ∈ Finset.range W.C, forceTerm (Dr i q k) (d.X e a) (d.R e) (d.dR1 e (W.qp q) k) (c.Y e (W.q1 q)) (H (c.nbr e) (W.q2 q) k)
              (c.R1 e (W.qp q) k) (d.dY e a (W.q1 q)) = -(S q * d.X e a / d.R e * c.Y e (W.q1 q) + S' q * d.dY e a (W.q1 q)) := by
            simp only [S, S', div_eq_mul_inv, Finset.sum_mul]
            rw [← Finset.sum_add_distrib, ← Finset.sum_neg_distrib]
            refine Finset.sum_congr rfl (fun k _ => ?_)
            unfold forceTerm
            rw [div_eq_mul_inv]
            ring
          rw [hterm]
          congr 1
          interval_cases a <;> rfl
        · rintro b ⟨j', hj', a, ha, rfl⟩ hn
          show f _ + (if (3 * (off g.nn i + j') + a) / 3 < off g.nn i + (j + 1) then _ else 0)
            = f _ + (if (3 * (off g.nn i + j') + a) / 3 < off g.nn i + j then _ else 0)
          have : j' ≠ j := by
            rintro rfl
            exact hn ⟨a, ha, rfl⟩
          congr 1
          rw [show (3 * (off g.nn i + j') + a) / 3 = off g.nn i + j' by omega]
          by_cases hlt : j' < j
          · rw [if_pos (by omega), if_pos (by omega)]
          · rw [if_neg (by omega), if_neg (by omega)]
        · rintro b ⟨u, hu, lm, hlm, k', hk', rfl⟩
          exact (add_zero _).symm
      obtain ⟨vv, hvv⟩ := loop
      refine ⟨vv, Jd.opt (both_edges hi (hg.nn i hi)) (hvv.congr ?_ (by simp) ?_ (fun _ _ => rfl))⟩
      · rintro b ⟨j, hj, a, ha, rfl⟩
        show f _ = f _ + (if (3 * (off g.nn i + j) + a) / 3 < off g.nn i + 0 then _ else 0)
        rw [if_neg (by omega), add_zero]
      · rintro b ⟨j, hj, a, ha, rfl⟩
        show F _ _ + _ = F _ _ + (if (3 * (off g.nn i + j) + a) / 3 < off g.nn i + n i then _ else 0)
        rw [if_pos (by omega)]
    choose! VV hVV using thread
    exact ⟨_, Jd.par (δ2 := fun _ => 0) (h := G) (fun i hi => hVV i hi) (fcells_apart hg.nn) (by simp) (fun i _ => hTA i) (by simp) (by simp) (fun _ => trivial)
      (Jd.ret (v := []) (fun _ _ => rfl) (fun _ _ => rfl)) (fun b _ => (add_zero _).symm)⟩
  have hp' : ∀ E, ∃ v, Ok E (reversePhi1rK W.C W.M W.nQ (tab g.N (off g.nn)) g t R1 R1d Y Yg H1 v' E)
      ((ex g.N fun i => fcells false g.nn (n i) i) ∪ ∅ ∪ A) f v G := by
    intro E
    obtain ⟨vv, hvv⟩ := hp E
    refine ⟨vv, hvv.ok (by simp) ?_ (by simp) (fun _ _ => rfl) (by simp) ?_⟩
    · rintro b hb ⟨i, _, hi⟩
      exact hTA i b hi hb
    · rintro b ⟨u, hu, lm, hlm, k, hk, rfl⟩
      show h0 u lm k + adj1 W c g.N Dr u lm k = h0 u lm k + _
      congr 1
      unfold adj1
      refine Finset.sum_congr rfl (fun i hi => ?_)
      rw [hg.edg i (Finset.mem_range.mp hi), ← sum_edges (hg.nn i (Finset.mem_range.mp hi))]
      rfl
  obtain ⟨vv, hvv⟩ := hp' (fun b => if b then H1a.ext else forces.ext)
  have hle' := hg.le
  obtain ⟨f', Ha, k1, ⟨k2, k3⟩, ⟨k4, k5⟩, ⟨k6, k7⟩, k8, k9⟩ := launch2_ok V.L (v := forces) (w := H1a) hvv
    (fun b hb => by
      rcases hb with (hb | hb) | hb
      · obtain ⟨p, hp, h⟩ := (mem_fcells hg.nn).mp hb
        simp only [Prod.mk.injEq, true_and] at h
        subst h
        exact All.has hF (by unfold Graph.E at hle'; omega)
      · simp at hb
      · obtain ⟨u, hu, lm, hlm, k, hk, h⟩ := hb
        simp at h)
    (fun b hb => by
      rcases hb with (hb | hb) | hb
      · obtain ⟨p, hp, h⟩ := (mem_fcells hg.nn).mp hb
        simp at h
      · simp at hb
      · obtain ⟨u, hu, lm, hlm, k, hk, h⟩ := hb
        simp only [Set.mem_singleton_iff, Prod.mk.injEq, true_and] at h
        subst h
        exact hHa' u hu lm hlm k hk)
  refine ⟨v', f', Ha, ?_, j2, Fc.step hF hg.le k2 k4 (fun p hp x hx => ?_) (fun p hp => k8 _ (fun h => ?_)), hHa.of_ext k3 (k5 hHa.1), k3,
    fun u hu lm hlm k hk => k7 _ (Or.inr ⟨u, hu, lm, hlm, k, hk, rfl⟩)⟩
  · rw [k1]
    rfl
  · rw [k6 _ (Or.inl (Or.inl ((mem_fcells hg.nn).mpr ⟨p, hp, rfl⟩)))]
    have := All.has hF (p := p) (by unfold Graph.E at hle'; omega)
    rw [hx, Option.some.injEq] at this
    rw [this]
    rfl
  · rcases h with (hb | hb) | hb
    · obtain ⟨p', hp', h⟩ := (mem_fcells hg.nn).mp hb
      simp only [Prod.mk.injEq, List.cons.injEq, and_true, true_and] at h
      subst h
      exact hp hp'
    · simp at hb
    · obtain ⟨u, hu, lm, hlm, k, hk, h⟩ := hb
      simp at h

end Verif.Kokkos
