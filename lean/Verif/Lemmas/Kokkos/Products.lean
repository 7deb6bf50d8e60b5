import Verif.Lemmas.Kokkos.Layer0
import Verif.Lemmas.MACE.Products

/-! # Product basis -/

namespace Verif.Par
open Prog
variable {ι K : Type} [DecidableEq ι] [AddCommMonoid K] {E : ι → List ℕ} {D : Set (ι × List ℕ)}

/-- Read whatever the cell contains. -/
theorem Ok.getAll {b : ι} {is : List ℕ} {k : K → Prog ι K} {f : ι × List ℕ → K} {G : K → ι × List ℕ → K} {v : List K} (hc : (b, is) ∈ D)
    (h : ∀ x, Ok E (k x) D f v (G x)) : Ok E (Prog.get E b is k) D f v (G (f (b, is))) := Ok.get hc (fun x => (h x).1) (h _).2

/-- Two-dimensional ranges of threads with shared cells. -/
theorem Jd.parFor2 {n m : ℕ} {t : ℕ → ℕ → Prog ι K} {T : ℕ → ℕ → Set (ι × List ℕ)} {R A : Set (ι × List ℕ)} {f g δ : ι × List ℕ → K}
    {δ' : ℕ → ℕ → ι × List ℕ → K} (ht : ∀ i < n, ∀ j < m, ∃ v, Jd E (t i j) (T i j) R A f v g (δ' i j))
    (hd : ∀ i < n, ∀ j < m, ∀ i' < n, ∀ j' < m, ∀ c, c ∈ T i j → c ∈ T i' j' → i = i' ∧ j = j')
    (hTR : ∀ i < n, ∀ j < m, ∀ c ∈ T i j, c ∉ R) (hTA : ∀ i < n, ∀ j < m, ∀ c ∈ T i j, c ∉ A) (hRA : ∀ c ∈ R, c ∉ A)
    (hfg : ∀ c ∈ R, g c = f c)
    (hδ : ∀ c ∈ A, δ c = ∑ i ∈ Finset.range n, ∑ j ∈ Finset.range m, δ' i j c) :
    Jd E (Prog.parFor2 n m t) (ex n fun i => ex m fun j => T i j) R A f [] g δ := by
  have hq : ∀ q < n * m, q / m < n ∧ q % m < m := by
    intro q hq
    have hm : 0 < m := Nat.pos_of_ne_zero (by rintro rfl; simp at hq)
    exact ⟨(Nat.div_lt_iff_lt_mul hm).mpr hq, Nat.mod_lt _ hm⟩
  have hex : (ex n fun i => ex m fun j => T i j) = ex (n * m) (fun q => T (q / m) (q % m)) := by
    ext c
    constructor
    · rintro ⟨i, hi, j, hj, hc⟩
      refine ⟨i * m + j, flat_lt hi hj, ?_⟩
      dsimp only
      rw [flat_div hj, flat_mod hj]
      exact hc
    · rintro ⟨q, h, hc⟩
      exact ⟨_, (hq q h).1, _, (hq q h).2, hc⟩
  rw [hex]
  choose! V hV using ht
  refine Jd.par (δ2 := fun _ => 0) (V := fun q => V (q / m) (q % m)) (δ' := fun q => δ' (q / m) (q % m))
    (fun q h => hV _ (hq q h).1 _ (hq q h).2) (fun q h q' h' c hc hc' => ?_)
    (fun q h => hTR _ (hq q h).1 _ (hq q h).2) (fun q h => hTA _ (hq q h).1 _ (hq q h).2) hRA hfg (fun _ => trivial)
    (Jd.ret (fun _ _ => rfl) (fun _ _ => rfl)) (fun c hc => ?_)
  · obtain ⟨e1, e2⟩ := hd _ (hq q h).1 _ (hq q h).2 _ (hq q' h').1 _ (hq q' h').2 c hc hc'
    rw [← Nat.div_add_mod q m, ← Nat.div_add_mod q' m, e1, e2]
  · rw [hδ c hc, add_zero, sum_flat n m (fun q => δ' (q / m) (q % m) c)]
    refine Finset.sum_congr rfl (fun i _ => Finset.sum_congr rfl (fun j hj => ?_))
    rw [flat_div (Finset.mem_range.mp hj), flat_mod (Finset.mem_range.mp hj)]

end Verif.Par

namespace Verif.Kokkos
open Verif.Par Verif.Par.Prog Verif.MACE Verif.Spec Verif.Poly

section poly
variable {K : Type} [Field K]

/-- The products `spec` of a polynomial in `M` variables; node `q` stands for the monomial `nd q`. -/
structure GrOk (M : ℕ) (spec : View ℕ) (nd : ℕ → List ℕ) : Prop where
  var : ∀ q < M, nd q = [q]
  edge : ∀ p < spec.extent 0, ∃ a b, spec.get [p, 0] = some a ∧ spec.get [p, 1] = some b ∧ a < M + p ∧ b < M + p ∧
    (nd a ++ nd b).Perm (nd (M + p))

variable {M C : ℕ} {spec : View ℕ} {nd : ℕ → List ℕ}

/-- Cells of the nodes `q < P`, channels `k < C`. -/
def vcells {ι : Type} (bv : ι) (i P C : ℕ) : Set (ι × List ℕ) := ex P fun q => ex C fun k => {(bv, [i, q, k])}

def ocells {ι : Type} (bo : ι) (out : ℕ → List ℕ) (C : ℕ) : Set (ι × List ℕ) := ex C fun k => {(bo, out k)}

/-- Contents of nodes and results. -/
def pst {ι : Type} [DecidableEq ι] (bv : ι) (O : ℕ → K) (V : ℕ → ℕ → K) : ι × List ℕ → K :=
  fun c => if c.1 = bv then d3 (fun _ q k => V q k) c.2 else O (c.2.getLastD 0)

theorem pst_v {ι : Type} [DecidableEq ι] {bv : ι} {O : ℕ → K} {V : ℕ → ℕ → K} (i q k : ℕ) : pst bv O V (bv, [i, q, k]) = V q k := by
  unfold pst; rw [if_pos rfl]; rfl

theorem pst_o {ι : Type} [DecidableEq ι] {bo bv : ι} (h : bo ≠ bv) {O : ℕ → K} {V : ℕ → ℕ → K} {l : List ℕ} {k : ℕ} (hl : l.getLastD 0 = k) :
    pst bv O V (bo, l) = O k := by
  unfold pst; rw [if_neg h, hl]

/-- Values after `p` products. -/
def fwdV (M : ℕ) (nd : ℕ → List ℕ) (x : ℕ → ℕ → K) (V : ℕ → ℕ → K) (p q k : ℕ) : K := if q < M + p then monomial (x k) (nd q) else V q k

theorem polyFwd_ok {ι : Type} [DecidableEq ι] {E : ι → List ℕ} {bo bv : ι} (hb : bo ≠ bv) {out : ℕ → List ℕ} (hout : ∀ k, (out k).getLastD 0 = k)
    (i : ℕ) (hG : GrOk M spec nd) {coef inp : ℕ → ℕ → Option K} {cf x : ℕ → ℕ → K}
    (hc : ∀ q < M + spec.extent 0, ∀ k < C, coef q k = some (cf q k)) (hi : ∀ q < M, ∀ k < C, inp q k = some (x k q)) (O : ℕ → K) (V : ℕ → ℕ → K) :
    ∃ v, Ok E (polyFwd E bo bv out (fun p k => [i, p, k]) M C spec coef inp) (vcells bv i (M + spec.extent 0) C ∪ ocells bo out C)
      (pst bv O V) v (pst bv (fun k => O k + ∑ q ∈ Finset.range (M + spec.extent 0), cf q k * monomial (x k) (nd q))
        (fwdV M nd x V (spec.extent 0))) := by
  have hinj : ∀ k k', out k = out k' → k = k' := fun k k' h => by rw [← hout k, ← hout k', h]
  have h1 : Jd E (parFor2 M C (fun lm k => opt (inp lm k) (fun a => seq (put E bv [i, lm, k] a)
      (opt (coef lm k) (fun c => Prog.get E bv [i, lm, k] (fun x => atomic E bo (out k) (c * x)))))))
      (ex M fun lm => ex C fun k => {(bv, [i, lm, k])}) ∅ (ocells bo out C) (pst bv O V) [] (pst bv O (fwdV M nd x V 0))
      (fun c => ∑ lm ∈ Finset.range M, cf lm (c.2.getLastD 0) * x (c.2.getLastD 0) lm) := by
    refine Jd.parFor2 (δ' := fun lm k c => if c.2.getLastD 0 = k then cf lm k * x k lm else 0) (fun lm hlm k hk => ?_) ?_ (by simp) ?_ (by simp)
      (by simp) ?_
    · have hv : fwdV M nd x V 0 lm k = x k lm := by
        unfold fwdV; rw [if_pos (by omega), hG.var lm hlm]; simp [monomial]
      have hdis : ∀ c ∈ ({(bv, [i, lm, k])} : Set (ι × List ℕ)), c ∉ ocells bo out C := by
        rintro c rfl ⟨k', _, h⟩
        simp only [Set.mem_singleton_iff, Prod.mk.injEq] at h
        exact hb h.1.symm
      refine ⟨[], Jd.opt (hi lm hlm k hk) (Jd.seq (g := pst bv O (fwdV M nd x V 0)) (δ1 := fun _ => 0) (v := [])
        (Jd.of_ok (Ok.put1 ?_) hdis (fun _ _ => rfl))
        (Jd.opt (hc lm (by omega) k hk) (Jd.get (Or.inl rfl) (fun y => ?_) (Jd.atomic ?_ ?_ ?_ (fun _ _ => rfl) hdis)))
        (by simp) (by simp) (by simp) (fun c _ => (zero_add _).symm))⟩
      · rw [pst_v, hv]
      · exact Confined.atomic (fun p hp => Or.inr (mem_cells (show (bo, out k) ∈ ocells bo out C from ⟨k, hk, rfl⟩) hp))
      · exact ⟨k, hk, rfl⟩
      · dsimp only
        rw [hout, if_pos rfl, pst_v, hv]
      · rintro c ⟨k', hk', rfl⟩ hne
        refine if_neg (fun h => hne ?_)
        rw [hout] at h
        rw [h]
    · apart
    · rintro lm hlm k hk c rfl ⟨k', _, h⟩
      simp only [Set.mem_singleton_iff, Prod.mk.injEq] at h
      exact hb h.1.symm
    · rintro c ⟨k', hk', rfl⟩
      dsimp only
      rw [hout]
      refine Finset.sum_congr rfl (fun lm _ => ?_)
      rw [Finset.sum_ite_eq, if_pos (Finset.mem_range.mpr hk')]
  have hvo : ∀ {P : ℕ}, ∀ c ∈ (vcells bv i P C : Set (ι × List ℕ)), c ∉ ocells bo out C := by
    rintro P c ⟨q, _, k, _, rfl⟩ ⟨k', _, h⟩
    simp only [Set.mem_singleton_iff, Prod.mk.injEq] at h
    exact hb h.1.symm
  have h2 := h1.ok (h := pst bv (fun k => O k + ∑ q ∈ Finset.range M, cf q k * monomial (x k) (nd q)) (fwdV M nd x V 0)) (by simp)
    (fun c hc h => hvo c h hc) (by simp) (by
      rintro c ⟨q, _, k, _, rfl⟩
      rw [pst_v, pst_v]) (by simp) (by
      rintro c ⟨k, hk, rfl⟩
      rw [pst_o hb (hout k), pst_o hb (hout k)]
      dsimp only
      rw [hout k]
      congr 1
      refine Finset.sum_congr rfl (fun q hq => ?_)
      rw [hG.var q (Finset.mem_range.mp hq)]
      simp [monomial])
  have h3 : Ok E _ (vcells bv i (M + spec.extent 0) C ∪ ocells bo out C) _ _ _ := h2.frame
    (g' := pst bv (fun k => O k + ∑ q ∈ Finset.range M, cf q k * monomial (x k) (nd q)) (fwdV M nd x V 0))
    (by
      rintro c ((⟨q, hq, h⟩ | h) | h)
      · exact Or.inl ⟨q, by omega, h⟩
      · exact absurd h (by simp)
      · exact Or.inr h) (fun _ _ => rfl) (fun _ _ => rfl) (by
      rintro c (⟨q, hq, k, hk, rfl⟩ | h) hn
      · rw [pst_v, pst_v]
        refine if_neg (fun h => hn (Or.inl (Or.inl ⟨q, by omega, k, hk, rfl⟩)))
      · exact absurd (Or.inr h) hn)
  obtain ⟨v, h4⟩ := Ok.forP (E := E) (D := vcells bv i (M + spec.extent 0) C ∪ ocells bo out C) (n := spec.extent 0)
    (body := fun p => opt (both (spec.get [p, 0]) (spec.get [p, 1])) (fun e =>
      parFor C (fun k => Prog.get E bv [i, e.1, k] (fun x => Prog.get E bv [i, e.2, k] (fun y =>
        seq (put E bv [i, M + p, k] (x * y))
          (opt (coef (M + p) k) (fun c => Prog.get E bv [i, M + p, k] (fun z => plus E bo (out k) (c * z)))))))))
    (fun p => pst bv (fun k => O k + ∑ q ∈ Finset.range (M + p), cf q k * monomial (x k) (nd q)) (fwdV M nd x V p)) (by
      intro p hp
      obtain ⟨a, b, ha, hb', la, lb, hperm⟩ := hG.edge p hp
      refine ⟨[], Ok.opt (show both _ _ = some (a, b) by unfold both; rw [ha, hb']; rfl) ?_⟩
      refine Ok.parFor (fun k => (ex (M + spec.extent 0) fun q => {(bv, [i, q, k])}) ∪ {(bo, out k)}) (fun c => ?_) (fun k hk k' hk' hne => ?_)
        (fun k hk => ⟨[], ?_⟩)
      · constructor
        · rintro (⟨q, hq, k, hk, h⟩ | ⟨k, hk, h⟩)
          · exact ⟨k, hk, Or.inl ⟨q, hq, h⟩⟩
          · exact ⟨k, hk, Or.inr h⟩
        · rintro ⟨k, hk, ⟨q, hq, h⟩ | h⟩
          · exact Or.inl ⟨q, hq, k, hk, h⟩
          · exact Or.inr ⟨k, hk, h⟩
      · refine Set.disjoint_left.mpr ?_
        rintro c (⟨q, hq, rfl⟩ | rfl) (⟨q', hq', h⟩ | h)
        · simp only [Set.mem_singleton_iff, Prod.mk.injEq, List.cons.injEq, and_true, true_and] at h
          exact hne h.2
        · simp only [Set.mem_singleton_iff, Prod.mk.injEq] at h
          exact hb h.1.symm
        · simp only [Set.mem_singleton_iff, Prod.mk.injEq] at h
          exact hb h.1
        · simp only [Set.mem_singleton_iff, Prod.mk.injEq, true_and] at h
          exact hne (hinj _ _ h)
      · have hmem : ∀ q < M + spec.extent 0, ((bv, [i, q, k]) : ι × List ℕ) ∈ (ex (M + spec.extent 0) fun q => {(bv, [i, q, k])}) ∪
            ({(bo, out k)} : Set (ι × List ℕ)) := fun q hq => Or.inl ⟨q, hq, rfl⟩
        let S : ι × List ℕ → K := pst bv (fun k => O k + ∑ q ∈ Finset.range (M + p), cf q k * monomial (x k) (nd q)) (fwdV M nd x V p)
        have key : ∀ y z : K, Ok E (seq (put E bv [i, M + p, k] (y * z))
            (opt (coef (M + p) k) (fun c => Prog.get E bv [i, M + p, k] (fun z => plus E bo (out k) (c * z)))))
            ((ex (M + spec.extent 0) fun q => {(bv, [i, q, k])}) ∪ {(bo, out k)}) S []
            (fun c => if c = (bv, [i, M + p, k]) then y * z else if c = (bo, out k) then S c + cf (M + p) k * (y * z) else S c) := by
          intro y z
          have hne : ((bo, out k) : ι × List ℕ) ≠ (bv, [i, M + p, k]) := fun h => hb (Prod.mk.inj h).1
          refine Ok.seq (g := fun c => if c = (bv, [i, M + p, k]) then y * z else S c) (v := [])
            (Ok.put (hmem _ (by omega)) (if_pos rfl) (fun c _ h => if_neg h)) (Ok.opt (hc _ (by omega) k hk) ?_)
          refine (Ok.getAll (G := fun w c => if c = (bv, [i, M + p, k]) then y * z else if c = (bo, out k) then S c + cf (M + p) k * w else S c)
            (hmem _ (by omega)) (fun w => Ok.plus (Or.inr rfl) ?_ ?_)).congr (fun _ _ => rfl) ?_
          · rw [if_neg hne, if_pos rfl, if_neg hne]
          · intro c _ h
            by_cases h' : c = (bv, [i, M + p, k])
            · rw [if_pos h', if_pos h']
            · rw [if_neg h', if_neg h, if_neg h']
          · intro c _
            rw [if_pos rfl]
        have k1 := fun y => Ok.getAll (E := E) (hmem b (by omega)) (key y)
        have k2 := Ok.getAll (E := E) (hmem a (by omega)) k1
        refine k2.congr (fun _ _ => rfl) ?_
        have ea : S (bv, [i, a, k]) = monomial (x k) (nd a) := by
          show pst _ _ _ _ = _
          rw [pst_v]; exact if_pos la
        have eb : S (bv, [i, b, k]) = monomial (x k) (nd b) := by
          show pst _ _ _ _ = _
          rw [pst_v]; exact if_pos lb
        have em : monomial (x k) (nd a) * monomial (x k) (nd b) = monomial (x k) (nd (M + p)) := by
          rw [← monomial_append, monomial_perm _ hperm]
        rw [ea, eb, em]
        rintro c (⟨q, hq, rfl⟩ | rfl)
        · rw [pst_v]
          by_cases e : q = M + p
          · rw [if_pos (by rw [e]), e]
            exact if_pos (by omega)
          · rw [if_neg (by simp [e]), if_neg (fun h => hb (Prod.mk.inj h).1.symm)]
            show _ = pst _ _ _ _
            rw [pst_v]
            unfold fwdV
            split <;> split <;> first | rfl | omega
        · rw [pst_o hb (hout k), if_neg (fun h => hb (Prod.mk.inj h).1), if_pos rfl]
          show _ = pst _ _ _ _ + _
          rw [pst_o hb (hout k), ← add_assoc M p 1, Finset.sum_range_succ, add_assoc])
  exact ⟨v, Ok.seq h3 h4⟩

/-- Adjoints after `j` rounds. -/
def bwdW (M ne : ℕ) (ea eb : ℕ → ℕ) (v cf : ℕ → ℕ → K) : ℕ → ℕ → ℕ → K
  | 0, q, k => cf q k
  | j + 1, q, k => bwdW M ne ea eb v cf j q k
      + (if q = ea (ne - 1 - j) then bwdW M ne ea eb v cf j (M + (ne - 1 - j)) k * v (eb (ne - 1 - j)) k else 0)
      + (if q = eb (ne - 1 - j) then bwdW M ne ea eb v cf j (M + (ne - 1 - j)) k * v (ea (ne - 1 - j)) k else 0)

/-- Contents of the adjoints. -/
def vst {ι : Type} (W : ℕ → ℕ → K) : ι × List ℕ → K := fun c => d3 (fun _ q k => W q k) c.2

theorem polyBwd_ok {ι : Type} [DecidableEq ι] {E : ι → List ℕ} {bv : ι} (i : ℕ) (hG : GrOk M spec nd) {coef values : ℕ → ℕ → Option K}
    {cf x : ℕ → ℕ → K} (hc : ∀ q < M + spec.extent 0, ∀ k < C, coef q k = some (cf q k))
    (hv : ∀ q < M + spec.extent 0, ∀ k < C, values q k = some (monomial (x k) (nd q))) :
    ∃ W : ℕ → ℕ → K, (∀ f, ∃ v, Ok E (polyBwd E bv (fun p k => [i, p, k]) (M + spec.extent 0) M C spec coef values)
      (vcells bv i (M + spec.extent 0) C) f v (vst W)) ∧
      ∀ q < M, ∀ k < C, W q k = ∑ p ∈ Finset.range (M + spec.extent 0), cf p k * lbz (x k) (fun w => if w = q then 1 else 0) (nd p) := by
  have hedge := hG.edge
  choose! ea eb h1 h2 h3 h4 h5 using hedge
  let v : ℕ → ℕ → K := fun q k => monomial (x k) (nd q)
  refine ⟨bwdW M (spec.extent 0) ea eb v cf (spec.extent 0), fun f => ?_, fun q hq k hk => ?_⟩
  · have p1 : Lc E (parFor2 (M + spec.extent 0) C (fun p k => opt (coef p k) (fun c => put E bv [i, p, k] c)))
        (vcells bv i (M + spec.extent 0) C) (fun c _ => vst cf c) := by
      refine Lc.parFor2 (fun p hp k hk => Lc.opt (hc p hp k hk) (Lc.put (fun x => rfl))) ?_
      apart
    obtain ⟨w, hw⟩ := p1 f
    obtain ⟨w', hw'⟩ := Ok.forP (E := E) (D := vcells bv i (M + spec.extent 0) C) (n := spec.extent 0)
      (body := fun p' =>
        let p := spec.extent 0 - 1 - p'
        opt (both (spec.get [p, 0]) (spec.get [p, 1])) (fun e =>
          parFor C (fun k => seq
            (Prog.get E bv [i, M + p, k] (fun a => opt (values e.2 k) (fun v => plus E bv [i, e.1, k] (a * v))))
            (Prog.get E bv [i, M + p, k] (fun a => opt (values e.1 k) (fun v => plus E bv [i, e.2, k] (a * v)))))))
      (fun j => vst (bwdW M (spec.extent 0) ea eb v cf j)) (by
        intro j hj
        dsimp only
        obtain ⟨p, hp⟩ : ∃ p, p = spec.extent 0 - 1 - j := ⟨_, rfl⟩
        have hpl : p < spec.extent 0 := by omega
        rw [← hp]
        refine ⟨[], Ok.opt (show both _ _ = some (ea p, eb p) by unfold both; rw [h1 p hpl, h2 p hpl]; rfl) ?_⟩
        refine Ok.parFor (fun k => ex (M + spec.extent 0) fun q => {(bv, [i, q, k])}) (fun c => ?_) (fun k hk k' hk' hne => ?_)
          (fun k hk => ⟨[], ?_⟩)
        · constructor
          · rintro ⟨q, hq, k, hk, h⟩
            exact ⟨k, hk, q, hq, h⟩
          · rintro ⟨k, hk, q, hq, h⟩
            exact ⟨q, hq, k, hk, h⟩
        · refine Set.disjoint_left.mpr ?_
          rintro c ⟨q, hq, rfl⟩ ⟨q', hq', h⟩
          simp only [Set.mem_singleton_iff, Prod.mk.injEq, List.cons.injEq, and_true, true_and] at h
          exact hne h.2
        · have la := h3 p hpl
          have lb := h4 p hpl
          have hmem : ∀ q < M + spec.extent 0, ((bv, [i, q, k]) : ι × List ℕ) ∈ (ex (M + spec.extent 0) fun q => {(bv, [i, q, k])} : Set (ι × List ℕ)) :=
            fun q hq => ⟨q, hq, rfl⟩
          have step : ∀ (W : ℕ → ℕ → K) (a b : ℕ), a < M + p → b < M + p →
              Ok E (Prog.get E bv [i, M + p, k] (fun z => opt (values b k) (fun v => plus E bv [i, a, k] (z * v))))
                (ex (M + spec.extent 0) fun q => {(bv, [i, q, k])}) (vst W) []
                (vst (fun q k => W q k + if q = a then W (M + p) k * v b k else 0)) := by
            intro W a b ha hb'
            have h0 : ∀ z : K, Ok E (opt (values b k) (fun v => plus E bv [i, a, k] (z * v))) (ex (M + spec.extent 0) fun q => {(bv, [i, q, k])})
                (vst W) [] (fun c => if c = (bv, [i, a, k]) then vst W c + z * v b k else vst W c) := fun z =>
              Ok.opt (hv b (by omega) k hk) (Ok.plus (hmem a (by omega)) (if_pos rfl) (fun c _ h => if_neg h))
            refine (Ok.getAll (hmem (M + p) (by omega)) h0).congr (fun _ _ => rfl) ?_
            rintro c ⟨q, hq, rfl⟩
            by_cases e : q = a
            · subst e
              rw [if_pos rfl]
              show W q k + (if q = q then _ else _) = W q k + _
              rw [if_pos rfl]
              rfl
            · rw [if_neg (by simp [e])]
              show W q k + (if q = a then _ else _) = W q k
              rw [if_neg e, add_zero]
          refine (Ok.seq (step _ _ _ la lb) (step _ _ _ lb la)).congr (fun _ _ => rfl) ?_
          rintro c ⟨q, hq, rfl⟩
          show bwdW _ _ _ _ _ _ (j + 1) q k = _ + _ + (if q = eb p then (_ + _) * _ else 0)
          rw [if_neg (show ¬ M + p = ea p by omega), add_zero]
          rw [bwdW, ← hp])
    exact ⟨w', Ok.seq hw hw'⟩
  · have inv : ∀ j ≤ spec.extent 0, ∀ d : ℕ → K,
        ∑ q ∈ Finset.range (M + (spec.extent 0 - j)), bwdW M (spec.extent 0) ea eb v cf j q k * lbz (x k) d (nd q)
          = ∑ q ∈ Finset.range (M + spec.extent 0), cf q k * lbz (x k) d (nd q) := by
      intro j
      induction j with
      | zero => intro _ d; rfl
      | succ j ih =>
        intro hj d
        rw [← ih (by omega) d]
        obtain ⟨p, hp⟩ : ∃ p, p = spec.extent 0 - 1 - j := ⟨_, rfl⟩
        have hpl : p < spec.extent 0 := by omega
        have e1 : spec.extent 0 - (j + 1) = p := by omega
        have e2 : spec.extent 0 - j = p + 1 := by omega
        have el : lbz (x k) d (nd (M + p)) = lbz (x k) d (nd (ea p)) * v (eb p) k + v (ea p) k * lbz (x k) d (nd (eb p)) := by
          rw [← lbz_perm _ _ (h5 p hpl), lbz_append]
        rw [e1, e2, ← add_assoc M p 1, Finset.sum_range_succ, el]
        simp only [bwdW]
        rw [← hp]
        simp only [add_mul, Finset.sum_add_distrib, ite_mul, zero_mul]
        rw [Finset.sum_ite_eq', Finset.sum_ite_eq', if_pos (Finset.mem_range.mpr (h3 p hpl)), if_pos (Finset.mem_range.mpr (h4 p hpl))]
        ring
    have := inv (spec.extent 0) le_rfl (fun w => if w = q then 1 else 0)
    rw [Nat.sub_self, add_zero] at this
    rw [← this, Finset.sum_eq_single q]
    · rw [hG.var q hq]
      simp [lbz]
    · intro w hw hne
      rw [hG.var w (Finset.mem_range.mp hw)]
      simp [lbz, hne]
    · intro h
      exact absurd (Finset.mem_range.mpr hq) h

/-- `spec` and `coeff` represent the polynomials with coefficients `co t k` and monomials `mo` in `M` variables. -/
structure KPoly (nT M C : ℕ) (co : ℕ → ℕ → List K) (mo : List (List ℕ)) (spec : View ℕ) (coeff : View K) (nd : ℕ → List ℕ) (cf : ℕ → ℕ → ℕ → K) :
    Prop where
  gr : GrOk M spec nd
  ext : coeff.extent 1 = M + spec.extent 0
  cfs : ∀ t < nT, ∀ q < M + spec.extent 0, ∀ k < C, coeff.get [t, q, k] = some (cf t q k)
  sum : ∀ t < nT, ∀ k < C, ∀ F : List ℕ → K, ∑ q ∈ Finset.range (M + spec.extent 0), cf t q k * F (nd q)
    = ((mo.zip (co t k)).map (fun q => q.2 * F q.1)).sum

theorem KPoly.value {nT : ℕ} {co : ℕ → ℕ → List K} {mo : List (List ℕ)} {coeff : View K} {cf : ℕ → ℕ → ℕ → K}
    (h : KPoly nT M C co mo spec coeff nd cf) {t k : ℕ} (ht : t < nT) (hk : k < C) (x : ℕ → K) :
    ∑ q ∈ Finset.range (M + spec.extent 0), cf t q k * monomial x (nd q) = polynomial (co t k) mo x := h.sum t ht k hk _

theorem KPoly.grad {nT : ℕ} {co : ℕ → ℕ → List K} {mo : List (List ℕ)} {coeff : View K} {cf : ℕ → ℕ → ℕ → K}
    (h : KPoly nT M C co mo spec coeff nd cf) {t k : ℕ} (ht : t < nT) (hk : k < C) (x : ℕ → K) (v : ℕ) :
    ∑ q ∈ Finset.range (M + spec.extent 0), cf t q k * lbz x (fun w => if w = v then 1 else 0) (nd q) = polyGrad (co t k) mo x v :=
  h.sum t ht k hk _

theorem Room.like {v w : View K} {ns : List ℕ} {m n : ℕ} (h : Room v ns m) (hw : Room w ns n) :
    Room (if v.extent 0 < n then View.new w.ext 0 else v) ns n := by
  split
  · obtain ⟨h1, x, ms, h2, h3, h4⟩ := hw
    exact ⟨View.new_ok _ _, x, ms, h2, h3, h4⟩
  · exact h.extent ‹_›

variable {nT N : ℕ} {types : List ℕ} {typ : ℕ → ℕ}

theorem computeM1_spec (Ev : Env K) (ht : ∀ i < N, types[i]? = some (typ i)) (hlt : ∀ i < N, typ i < nT) {co : ℕ → ℕ → List K}
    {mo : List (List ℕ)} {coeff : View K} {cf : ℕ → ℕ → ℕ → K} (hP : KPoly nT M C co mo spec coeff nd cf) {A1 M1 vals : View K}
    {a : ℕ → ℕ → ℕ → K} (hA : G3 A1 N M C a) (hM : Room M1 [C] 0) (hV : Room vals [M + spec.extent 0, C] 0) :
    ∃ M1' vals', computeM1 Ev C M N types spec coeff A1 M1 vals = some (M1', vals') ∧ Room M1' [C] N ∧
      G2 M1' N C (fun i k => polynomial (co (typ i) k) mo (fun lm => a i lm k)) ∧ Room vals' [M + spec.extent 0, C] N ∧
      G3 vals' N (M + spec.extent 0) C (fun i q k => monomial (fun lm => a i lm k) (nd q)) := by
  unfold computeM1
  dsimp only
  have r1 : Room ((grow M1 N [C]).fill 0) [C] N := (hM.grow N).fill 0
  have g1 : G2 ((grow M1 N [C]).fill 0) N C (fun _ _ => 0) := G2.fill (hM.grow N)
  have r2 := hV.grow N
  obtain ⟨V0, g2⟩ := r2.get3
  generalize (grow M1 N [C]).fill 0 = M1 at *
  generalize grow vals N [M + spec.extent 0, C] = vals at *
  let T : ℕ → Set (Bool × List ℕ) := fun i => vcells true i (M + spec.extent 0) C ∪ ocells false (fun k => [i, k]) C
  let f : Bool × List ℕ → K := fun c => if c.1 = true then d3 V0 c.2 else 0
  let G : Bool × List ℕ → K := fun c => if c.1 = true then d3 (fun i q k => monomial (fun lm => a i lm k) (nd q)) c.2
    else d2 (fun i k => polynomial (co (typ i) k) mo (fun lm => a i lm k)) c.2
  have hp : ∀ E, Ok E (M1K C M N types spec coeff A1 E) (ex N T) f [] G := by
    intro E
    refine Ok.parFor T (fun c => Iff.rfl) (fun i hi i' hi' hne => ?_) (fun i hi => ?_)
    · refine Set.disjoint_left.mpr ?_
      rintro c (⟨q, hq, k, hk, rfl⟩ | ⟨k, hk, rfl⟩) (⟨q', hq', k', hk', h⟩ | ⟨k', hk', h⟩)
      all_goals simp only [Set.mem_singleton_iff, Prod.mk.injEq, List.cons.injEq, and_true, true_and] at h
      · exact hne h.1
      · simp at h
      · simp at h
      · exact hne h.1
    · obtain ⟨v, hv⟩ := polyFwd_ok (E := E) (bo := false) (bv := true) (C := C) (by simp) (out := fun k => [i, k]) (fun k => rfl) i hP.gr
        (coef := fun p k => (types[i]?).bind (fun t => coeff.get [t, p, k])) (inp := fun p k => A1.get [i, p, k])
        (cf := cf (typ i)) (x := fun k lm => a i lm k) (fun q hq k hk => by rw [ht i hi]; exact hP.cfs _ (hlt i hi) q hq k hk)
        (fun q hq k hk => hA i hi q hq k hk) (fun _ => 0) (V0 i)
      refine ⟨v, hv.congr ?_ ?_⟩
      · rintro c (⟨q, hq, k, hk, rfl⟩ | ⟨k, hk, rfl⟩)
        · rw [pst_v]; rfl
        · rw [pst_o (by simp) rfl]; rfl
      · rintro c (⟨q, hq, k, hk, rfl⟩ | ⟨k, hk, rfl⟩)
        · rw [pst_v]; exact (if_pos hq).symm
        · rw [pst_o (by simp) rfl]
          show polynomial _ _ _ = _
          rw [zero_add]
          exact (hP.value (hlt i hi) hk _).symm
  have hT1 : ∀ i < N, ∀ k < C, (false, [i, k]) ∈ ex N T := fun i hi k hk => ⟨i, hi, Or.inr ⟨k, hk, rfl⟩⟩
  have hT2 : ∀ i < N, ∀ q < M + spec.extent 0, ∀ k < C, (true, [i, q, k]) ∈ ex N T := fun i hi q hq k hk => ⟨i, hi, Or.inl ⟨q, hq, k, hk, rfl⟩⟩
  obtain ⟨v', w', k1, ⟨k2, k3⟩, ⟨k4, k5⟩, ⟨k6, k7⟩, -⟩ := launch2_ok Ev.L (v := M1) (w := vals) (hp _)
    (fun c hc => by
      obtain ⟨i, hi, ⟨q, hq, k, hk, h⟩ | ⟨k, hk, h⟩⟩ := hc
      · simp at h
      · simp only [Set.mem_singleton_iff, Prod.mk.injEq, true_and] at h
        subst h
        exact g1 i hi k hk)
    (fun c hc => by
      obtain ⟨i, hi, ⟨q, hq, k, hk, h⟩ | ⟨k, hk, h⟩⟩ := hc
      · simp only [Set.mem_singleton_iff, Prod.mk.injEq, true_and] at h
        subst h
        exact g2 i hi q hq k hk
      · simp at h)
  exact ⟨v', w', k1, r1.of_ext k2 (k4 r1.1), fun i hi k hk => k6 _ (hT1 i hi k hk), r2.of_ext k3 (k5 r2.1),
    fun i hi q hq k hk => k7 _ (hT2 i hi q hq k hk)⟩

theorem reverseM1_spec (Ev : Env K) (ht : ∀ i < N, types[i]? = some (typ i)) (hlt : ∀ i < N, typ i < nT) {co : ℕ → ℕ → List K}
    {mo : List (List ℕ)} {coeff : View K} {cf : ℕ → ℕ → ℕ → K} (hP : KPoly nT M C co mo spec coeff nd cf) {A1 A1a M1a vals adjs : View K}
    {a : ℕ → ℕ → ℕ → K} {ma : ℕ → ℕ → K} (hA1 : Room A1 [M, C] N) (hA : Room A1a [M, C] 0) (hM : G2 M1a N C ma)
    (hV : G3 vals N (M + spec.extent 0) C (fun i q k => monomial (fun lm => a i lm k) (nd q))) (hW : Room adjs [M + spec.extent 0, C] 0) :
    ∃ A' adjs', reverseM1 Ev C M N types spec coeff A1 A1a M1a vals adjs = some (A', adjs') ∧ Room A' [M, C] N ∧
      G3 A' N M C (fun i lm k => polyGrad (co (typ i) k) mo (fun lm => a i lm k) lm * ma i k) ∧ Room adjs' [M + spec.extent 0, C] N := by
  unfold reverseM1
  dsimp only
  rw [hP.ext]
  have r1 := (hA.like hA1).fill 0
  obtain ⟨A0, g1⟩ := r1.get3
  have r2 := hW.grow N
  obtain ⟨V0, g2⟩ := r2.get3
  generalize (if A1a.extent 0 < N then View.new A1.ext 0 else A1a).fill 0 = A1a at *
  generalize grow adjs N [M + spec.extent 0, C] = adjs at *
  let T : ℕ → Set (Bool × List ℕ) := fun i => vcells true i (M + spec.extent 0) C ∪ ex M fun q => ex C fun k => {(false, [i, q, k])}
  let f : Bool × List ℕ → K := fun c => if c.1 = true then d3 V0 c.2 else d3 A0 c.2
  have hp : ∀ E, ∃ W : ℕ → ℕ → ℕ → K, Ok E (reverseM1K C M N types spec coeff M1a vals E) (ex N T) f []
      (fun c => if c.1 = true then d3 W c.2 else d3 (fun i lm k => W i lm k * ma i k) c.2) ∧
      ∀ i < N, ∀ q < M, ∀ k < C, W i q k = polyGrad (co (typ i) k) mo (fun lm => a i lm k) q := by
    intro E
    have hW := fun i (hi : i < N) => polyBwd_ok (E := E) (bv := true) (C := C) i hP.gr
        (coef := fun p k => (types[i]?).bind (fun t => coeff.get [t, p, k])) (values := fun p k => vals.get [i, p, k])
        (cf := cf (typ i)) (x := fun k lm => a i lm k) (fun q hq k hk => by rw [ht i hi]; exact hP.cfs _ (hlt i hi) q hq k hk)
        (fun q hq k hk => hV i hi q hq k hk)
    choose! W hW1 hW2 using hW
    refine ⟨W, ?_, fun i hi q hq k hk => by rw [hW2 i hi q hq k hk, hP.grad (hlt i hi) hk]⟩
    unfold reverseM1K
    rw [hP.ext]
    refine Ok.parFor T (fun c => Iff.rfl) (fun i hi i' hi' hne => ?_) (fun i hi => ?_)
    · refine Set.disjoint_left.mpr ?_
      rintro c (⟨q, hq, k, hk, rfl⟩ | ⟨q, hq, k, hk, rfl⟩) (⟨q', hq', k', hk', h⟩ | ⟨q', hq', k', hk', h⟩)
      all_goals simp only [Set.mem_singleton_iff, Prod.mk.injEq, List.cons.injEq, and_true, true_and] at h
      · exact hne h.1
      · simp at h
      · simp at h
      · exact hne h.1
    · obtain ⟨v, hv⟩ := hW1 i hi f
      let S : Bool × List ℕ → K := fun c => if c.1 = true then d3 W c.2 else f c
      have hv' : Ok E _ (T i) f v S := hv.frame Set.subset_union_left (fun _ _ => rfl)
        (by rintro c ⟨q, hq, k, hk, rfl⟩; rfl)
        (by
          rintro c (h | ⟨q, hq, k, hk, rfl⟩) hn
          · exact absurd h hn
          · rfl)
      refine ⟨[], Ok.seq hv' ?_⟩
      have h2 : Ok E (parFor2 M C (fun p k => Prog.get E true [i, p, k] (fun a => opt (M1a.get [i, k]) (fun b => put E false [i, p, k] (a * b)))))
          (ex M fun q => ex C fun k => {(true, [i, q, k]), (false, [i, q, k])}) S []
          (fun c => if c.1 = true then d3 W c.2 else d3 (fun i lm k => W i lm k * ma i k) c.2) := by
        refine Ok.parFor2 (fun q k => {(true, [i, q, k]), (false, [i, q, k])}) (fun c => Iff.rfl) ?_ (fun q hq k hk => ⟨[], ?_⟩)
        · simp only [Set.mem_insert_iff, Set.mem_singleton_iff]
          grind
        · have hput : ∀ z, Ok E (put E false [i, q, k] (z * ma i k)) {(true, [i, q, k]), (false, [i, q, k])} S []
              (fun c => if c = (false, [i, q, k]) then z * ma i k else S c) :=
            fun z => Ok.put (Or.inr rfl) (if_pos rfl) (fun c _ h => if_neg h)
          refine (Ok.getAll (G := fun z c => if c = (false, [i, q, k]) then z * ma i k else S c) (Or.inl rfl)
            (fun z => Ok.opt (hM i hi k hk) (hput z))).congr (fun _ _ => rfl) ?_
          rintro c (rfl | rfl)
          · show W i q k = if ((true, [i, q, k]) : Bool × List ℕ) = (false, [i, q, k]) then _ else W i q k
            exact (if_neg (by simp)).symm
          · show W i q k * ma i k = if ((false, [i, q, k]) : Bool × List ℕ) = (false, [i, q, k]) then W i q k * ma i k else _
            exact (if_pos rfl).symm
      refine h2.frame ?_ (fun _ _ => rfl) (fun _ _ => rfl) ?_
      · rintro c ⟨q, hq, k, hk, rfl | rfl⟩
        · exact Or.inl ⟨q, by omega, k, hk, rfl⟩
        · exact Or.inr ⟨q, hq, k, hk, rfl⟩
      · rintro c (⟨q, hq, k, hk, rfl⟩ | ⟨q, hq, k, hk, rfl⟩) hn
        · rfl
        · exact absurd ⟨q, hq, k, hk, Or.inr rfl⟩ hn
  obtain ⟨W, hp, hW'⟩ := hp (fun b => if b then adjs.ext else A1a.ext)
  have hT1 : ∀ i < N, ∀ q < M, ∀ k < C, (false, [i, q, k]) ∈ ex N T := fun i hi q hq k hk => ⟨i, hi, Or.inr ⟨q, hq, k, hk, rfl⟩⟩
  obtain ⟨v', w', k1, ⟨k2, k3⟩, ⟨k4, k5⟩, ⟨k6, k7⟩, -⟩ := launch2_ok Ev.L (v := A1a) (w := adjs) hp
    (fun c hc => by
      obtain ⟨i, hi, ⟨q, hq, k, hk, h⟩ | ⟨q, hq, k, hk, h⟩⟩ := hc
      · simp at h
      · simp only [Set.mem_singleton_iff, Prod.mk.injEq, true_and] at h
        subst h
        exact g1 i hi q hq k hk)
    (fun c hc => by
      obtain ⟨i, hi, ⟨q, hq, k, hk, h⟩ | ⟨q, hq, k, hk, h⟩⟩ := hc
      · simp only [Set.mem_singleton_iff, Prod.mk.injEq, true_and] at h
        subst h
        exact g2 i hi q hq k hk
      · simp at h)
  refine ⟨v', w', k1, r1.of_ext k2 (k4 r1.1), fun i hi q hq k hk => ?_, r2.of_ext k3 (k5 r2.1)⟩
  rw [k6 _ (hT1 i hi q hq k hk)]
  show some (W i q k * ma i k) = _
  rw [hW' i hi q hq k hk]

/-! ## First layer -/

/-- Contents of one view and a family of views. -/
def fam (O : List ℕ → K) (V : ℕ → List ℕ → K) : Option ℕ × List ℕ → K
  | (none, l) => O l
  | (some lm, l) => V lm l

theorem computeM0_spec (Ev : Env K) {LM : ℕ} (ht : ∀ i < N, types[i]? = some (typ i)) (hlt : ∀ i < N, typ i < nT)
    {co : ℕ → ℕ → ℕ → List K} {mo : ℕ → List (List ℕ)} {spec : ℕ → View ℕ} {coeff : ℕ → View K} {nd : ℕ → ℕ → List ℕ} {cf : ℕ → ℕ → ℕ → ℕ → K}
    (hP : ∀ lm < LM, KPoly nT M C (fun t => co t lm) (mo lm) (spec lm) (coeff lm) (nd lm) (cf lm)) {A0 M0 : View K} {vals : ℕ → View K}
    {a : ℕ → ℕ → ℕ → K} (hA : G3 A0 N M C a) (hM : Room M0 [LM, C] 0) (hV : ∀ lm < LM, Room (vals lm) [M + (spec lm).extent 0, C] 0) :
    ∃ M0' vals', computeM0 Ev C M LM N types spec coeff A0 M0 vals = some (M0', vals') ∧ Room M0' [LM, C] N ∧
      G3 M0' N LM C (fun i lm k => polynomial (co (typ i) lm k) (mo lm) (fun q => a i q k)) ∧
      ∀ lm < LM, Room (vals' lm) [M + (spec lm).extent 0, C] N ∧
        G3 (vals' lm) N (M + (spec lm).extent 0) C (fun i q k => monomial (fun q => a i q k) (nd lm q)) := by
  unfold computeM0
  dsimp only
  have r1 : Room ((grow M0 N [LM, C]).fill 0) [LM, C] N := (hM.grow N).fill 0
  have g1 : G3 ((grow M0 N [LM, C]).fill 0) N LM C (fun _ _ _ => 0) := G3.fill (hM.grow N)
  generalize (grow M0 N [LM, C]).fill 0 = M0 at *
  have r2 : ∀ lm < LM, Room (growJ (Ev.junk (10 + lm)) (vals lm) N [(coeff lm).extent 1, C]) [M + (spec lm).extent 0, C] N := fun lm hlm => by
    rw [(hP lm hlm).ext]; exact (hV lm hlm).growJ _ N
  have g2 := fun lm hlm => (r2 lm hlm).get3
  choose! V0 g2 using g2
  generalize hvs : (fun lm => growJ (Ev.junk (10 + lm)) (vals lm) N [(coeff lm).extent 1, C]) = vs
  have hvs' : ∀ lm, growJ (Ev.junk (10 + lm)) (vals lm) N [(coeff lm).extent 1, C] = vs lm := fun lm => by rw [← hvs]
  simp only [hvs'] at r2 g2 ⊢
  let T : ℕ → ℕ → Set (Option ℕ × List ℕ) := fun i lm => vcells (some lm) i (M + (spec lm).extent 0) C ∪ ocells none (fun k => [i, lm, k]) C
  let f : Option ℕ × List ℕ → K := fam (fun _ => 0) (fun lm => d3 (V0 lm))
  let G : Option ℕ × List ℕ → K := fam (d3 (fun i lm k => polynomial (co (typ i) lm k) (mo lm) (fun q => a i q k)))
    (fun lm => d3 (fun i q k => monomial (fun q => a i q k) (nd lm q)))
  have hp : ∀ E, Ok E (M0K C M LM N types spec coeff A0 E) (ex N fun i => ex LM fun lm => T i lm) f [] G := by
    intro E
    refine Ok.parFor2 T (fun c => Iff.rfl) ?_ (fun i hi lm hlm => ?_)
    · rintro i hi lm hlm i' hi' lm' hlm' c (⟨q, hq, k, hk, rfl⟩ | ⟨k, hk, rfl⟩) (⟨q', hq', k', hk', h⟩ | ⟨k', hk', h⟩)
      all_goals simp only [Set.mem_singleton_iff, Prod.mk.injEq, List.cons.injEq, and_true, true_and, Option.some.injEq] at h
      · exact ⟨h.2.1, h.1⟩
      · simp at h
      · simp at h
      · exact ⟨h.1, h.2.1⟩
    · have hPl := hP lm hlm
      obtain ⟨v, hv⟩ := polyFwd_ok (E := E) (bo := none) (bv := some lm) (C := C) (by simp) (out := fun k => [i, lm, k]) (fun k => rfl) i hPl.gr
        (coef := fun p k => (types[i]?).bind (fun t => (coeff lm).get [t, p, k])) (inp := fun p k => A0.get [i, p, k])
        (cf := cf lm (typ i)) (x := fun k q => a i q k) (fun q hq k hk => by rw [ht i hi]; exact hPl.cfs _ (hlt i hi) q hq k hk)
        (fun q hq k hk => hA i hi q hq k hk) (fun _ => 0) (V0 lm i)
      refine ⟨v, hv.congr ?_ ?_⟩
      · rintro c (⟨q, hq, k, hk, rfl⟩ | ⟨k, hk, rfl⟩)
        · rw [pst_v]; rfl
        · rw [pst_o (by simp) rfl]; rfl
      · rintro c (⟨q, hq, k, hk, rfl⟩ | ⟨k, hk, rfl⟩)
        · rw [pst_v]; exact (if_pos hq).symm
        · rw [pst_o (by simp) rfl]
          show polynomial _ _ _ = _
          rw [zero_add]
          exact (hPl.value (hlt i hi) hk _).symm
  have he : (fun b : Option ℕ => (match b with | none => M0 | some lm => vs lm).ext) = fun b => match b with | none => M0.ext | some lm => (vs lm).ext := by
    funext b; cases b <;> rfl
  obtain ⟨vs', k1, k2, k3, k4, -⟩ := launch_ok Ev.L (vs := fun b => match b with | none => M0 | some lm => vs lm) (hp _) (by
    rintro c ⟨i, hi, lm, hlm, ⟨q, hq, k, hk, rfl⟩ | ⟨k, hk, rfl⟩⟩
    · exact g2 lm hlm i hi q hq k hk
    · exact g1 i hi lm hlm k hk)
  rw [he] at k1
  refine ⟨vs' none, fun lm => vs' (some lm), congrArg (fun o => Option.bind o (fun q => some (q.2 none, fun lm => q.2 (some lm)))) k1, r1.of_ext (k2 none) (k3 none r1.1), fun i hi lm hlm k hk =>
    k4 (none, [i, lm, k]) ⟨i, hi, lm, hlm, Or.inr ⟨k, hk, rfl⟩⟩, fun lm hlm => ⟨(r2 lm hlm).of_ext (k2 (some lm)) (k3 (some lm) (r2 lm hlm).1),
    fun i hi q hq k hk => k4 (some lm, [i, q, k]) ⟨i, hi, lm, hlm, Or.inl ⟨q, hq, k, hk, rfl⟩⟩⟩⟩

theorem reverseM0_spec (Ev : Env K) {LM : ℕ} (ht : ∀ i < N, types[i]? = some (typ i)) (hlt : ∀ i < N, typ i < nT)
    {co : ℕ → ℕ → ℕ → List K} {mo : ℕ → List (List ℕ)} {spec : ℕ → View ℕ} {coeff : ℕ → View K} {nd : ℕ → ℕ → List ℕ} {cf : ℕ → ℕ → ℕ → ℕ → K}
    (hP : ∀ lm < LM, KPoly nT M C (fun t => co t lm) (mo lm) (spec lm) (coeff lm) (nd lm) (cf lm)) {A0 A0a M0a : View K} {vals adjs : ℕ → View K}
    {a ma : ℕ → ℕ → ℕ → K} (hA0 : Room A0 [M, C] N) (hA : Room A0a [M, C] 0) (hM : G3 M0a N LM C ma)
    (hV : ∀ lm < LM, G3 (vals lm) N (M + (spec lm).extent 0) C (fun i q k => monomial (fun q => a i q k) (nd lm q)))
    (hW : ∀ lm < LM, Room (adjs lm) [M + (spec lm).extent 0, C] 0) :
    ∃ A' adjs', reverseM0 Ev C M LM N types spec coeff A0 A0a M0a vals adjs = some (A', adjs') ∧ Room A' [M, C] N ∧
      G3 A' N M C (fun i q k => ∑ lm ∈ Finset.range LM, polyGrad (co (typ i) lm k) (mo lm) (fun q => a i q k) q * ma i lm k) ∧
      ∀ lm < LM, Room (adjs' lm) [M + (spec lm).extent 0, C] N := by
  unfold reverseM0
  dsimp only
  have r0 := hA.like hA0
  have r1 := r0.fill 0
  have g1 := G3.fill r0
  clear r0
  generalize (if A0a.extent 0 < N then View.new A0.ext 0 else A0a).fill 0 = A0a at *
  have r2 : ∀ lm < LM, Room (growJ (Ev.junk (1000 + lm)) (adjs lm) N [(coeff lm).extent 1, C]) [M + (spec lm).extent 0, C] N := fun lm hlm => by
    rw [(hP lm hlm).ext]; exact (hW lm hlm).growJ _ N
  have g2 := fun lm hlm => (r2 lm hlm).get3
  choose! V0 g2 using g2
  generalize hvs : (fun lm => growJ (Ev.junk (1000 + lm)) (adjs lm) N [(coeff lm).extent 1, C]) = vs
  have hvs' : ∀ lm, growJ (Ev.junk (1000 + lm)) (adjs lm) N [(coeff lm).extent 1, C] = vs lm := fun lm => by rw [← hvs]
  simp only [hvs'] at r2 g2 ⊢
  let T : ℕ → ℕ → Set (Option ℕ × List ℕ) := fun i lm => vcells (some lm) i (M + (spec lm).extent 0) C
  let A : Set (Option ℕ × List ℕ) := ex N fun i => ex M fun q => ex C fun k => {(none, [i, q, k])}
  have hTA : ∀ (lm i P : ℕ), ∀ c ∈ (vcells (some lm) i P C : Set (Option ℕ × List ℕ)), c ∉ A := by
    rintro lm i P c ⟨q, hq, k, hk, rfl⟩ ⟨i', hi', q', hq', k', hk', h⟩
    simp at h
  let f : Option ℕ × List ℕ → K := fam (fun _ => 0) (fun lm => d3 (V0 lm))
  have hp : ∀ E, ∃ W : ℕ → ℕ → ℕ → ℕ → K, Ok E (reverseM0K C M LM N types spec coeff M0a vals E) ((ex N fun i => ex LM fun lm => T i lm) ∪ ∅ ∪ A) f []
      (fam (d3 (fun i q k => ∑ lm ∈ Finset.range LM, W i lm q k * ma i lm k)) (fun lm => d3 (fun i q k => W i lm q k))) ∧
      ∀ i < N, ∀ lm < LM, ∀ q < M, ∀ k < C, W i lm q k = polyGrad (co (typ i) lm k) (mo lm) (fun q => a i q k) q := by
    intro E
    have hW := fun i (hi : i < N) lm (hlm : lm < LM) => polyBwd_ok (E := E) (bv := some lm) (C := C) i (hP lm hlm).gr
        (coef := fun p k => (types[i]?).bind (fun t => (coeff lm).get [t, p, k])) (values := fun p k => (vals lm).get [i, p, k])
        (cf := cf lm (typ i)) (x := fun k q => a i q k) (fun q hq k hk => by rw [ht i hi]; exact (hP lm hlm).cfs _ (hlt i hi) q hq k hk)
        (fun q hq k hk => hV lm hlm i hi q hq k hk)
    choose! W hW1 hW2 using hW
    refine ⟨W, ?_, fun i hi lm hlm q hq k hk => by rw [hW2 i hi lm hlm q hq k hk, (hP lm hlm).grad (hlt i hi) hk]⟩
    have main : Jd E (reverseM0K C M LM N types spec coeff M0a vals E) (ex N fun i => ex LM fun lm => T i lm) ∅ A f []
        (fam (fun _ => 0) (fun lm => d3 (fun i q k => W i lm q k))) (fun c => d3 (fun i q k => ∑ lm ∈ Finset.range LM, W i lm q k * ma i lm k) c.2) := by
      refine Jd.parFor2 (T := T) (δ' := fun i lm c => d3 (fun i' q k => if i' = i then W i lm q k * ma i lm k else 0) c.2) (fun i hi lm hlm => ⟨[], ?_⟩) ?_
        (by simp) (fun i hi lm hlm => hTA lm i _) (by simp) (by simp) ?_
      · obtain ⟨v, hv⟩ := hW1 i hi lm hlm f
        rw [(hP lm hlm).ext]
        refine Jd.seq (g := fam (fun _ => 0) (fun lm => d3 (fun i q k => W i lm q k))) (δ1 := fun _ => 0)
          (Jd.of_ok (hv.congr (fun _ _ => rfl) (by rintro c ⟨q, hq, k, hk, rfl⟩; rfl)) (hTA lm i _) (fun _ _ => rfl)) ?_ (by simp) (by simp) (by simp)
          (fun c _ => (zero_add _).symm)
        have inner : Jd E (parFor2 M C (fun p k => Prog.get E (some lm) [i, p, k] (fun a => opt (M0a.get [i, lm, k]) (fun b =>
            atomic E none [i, p, k] (a * b))))) (ex M fun q => ex C fun k => {(some lm, [i, q, k])}) ∅ A
            (fam (fun _ => 0) (fun lm => d3 (fun i q k => W i lm q k))) [] (fam (fun _ => 0) (fun lm => d3 (fun i q k => W i lm q k)))
            (fun c => d3 (fun i' q k => if i' = i then W i lm q k * ma i lm k else 0) c.2) := by
          refine Jd.parFor2 (δ' := fun p k c => if c = (none, [i, p, k]) then W i lm p k * ma i lm k else 0) (fun p hp k hk => ⟨[], ?_⟩) (by apart) (by simp)
            ?_ (by simp) (by simp) ?_
          · have hmem : ((none, [i, p, k]) : Option ℕ × List ℕ) ∈ A := ⟨i, hi, p, hp, k, hk, rfl⟩
            refine Jd.get (Or.inl rfl) (fun z => Confined.opt (fun b _ => Confined.atomic (fun _ h => Or.inr (mem_cells hmem h))))
              (Jd.opt (hM i hi lm hlm k hk) (Jd.atomic hmem (if_pos rfl) (fun c _ h => if_neg h) (fun _ _ => rfl) ?_))
            rintro c rfl ⟨i', hi', q', hq', k', hk', h⟩
            simp at h
          · rintro p hp k hk c rfl ⟨i', hi', q', hq', k', hk', h⟩
            simp at h
          · rintro c ⟨i', hi', q', hq', k', hk', rfl⟩
            show (if i' = i then W i lm q' k' * ma i lm k' else 0) = _
            have : ∀ p ∈ Finset.range M, (∑ k ∈ Finset.range C, if ((none, [i', q', k']) : Option ℕ × List ℕ) = (none, [i, p, k]) then W i lm p k * ma i lm k else 0)
                = if q' = p then (if i' = i then W i lm q' k' * ma i lm k' else 0) else 0 := by
              intro p _
              rw [Finset.sum_eq_single k' (fun k _ hne => if_neg (by simp; intros; exact fun h => hne h.symm))
                (fun h => absurd (Finset.mem_range.mpr hk') h)]
              by_cases h1 : i' = i <;> by_cases h2 : q' = p <;> simp [h1, h2]
            rw [Finset.sum_congr rfl this, Finset.sum_ite_eq, if_pos (Finset.mem_range.mpr hq')]
        refine inner.frame ?_ le_rfl le_rfl (hTA lm i _) (fun _ _ => rfl) (fun _ _ _ => rfl) (fun _ _ => rfl) (fun c h h' => absurd h h')
        rintro c ⟨q, hq, k, hk, rfl⟩
        exact ⟨q, by omega, k, hk, rfl⟩
      · rintro i hi lm hlm i' hi' lm' hlm' c ⟨q, hq, k, hk, rfl⟩ ⟨q', hq', k', hk', h⟩
        simp only [Set.mem_singleton_iff, Prod.mk.injEq, List.cons.injEq, and_true, true_and, Option.some.injEq] at h
        exact ⟨h.2.1, h.1⟩
      · rintro c ⟨i, hi, q, hq, k, hk, rfl⟩
        show (∑ lm ∈ Finset.range LM, W i lm q k * ma i lm k) = ∑ i' ∈ Finset.range N, ∑ lm ∈ Finset.range LM, if i = i' then W i' lm q k * ma i' lm k else 0
        refine ((Finset.sum_eq_single i ?_ ?_).trans ?_).symm
        · intro i' _ hne
          exact Finset.sum_eq_zero (fun lm _ => if_neg (fun h => hne h.symm))
        · intro h
          exact absurd (Finset.mem_range.mpr hi) h
        · exact Finset.sum_congr rfl (fun lm _ => if_pos rfl)
    refine main.ok (by simp) ?_ (by simp) ?_ (by simp) ?_
    · rintro c hc ⟨i, hi, lm, hlm, h⟩
      exact hTA lm i _ c h hc
    · rintro c ⟨i, hi, lm, hlm, q, hq, k, hk, rfl⟩
      rfl
    · rintro c ⟨i, hi, q, hq, k, hk, rfl⟩
      show _ = 0 + _
      rw [zero_add]
      rfl
  have he : (fun b : Option ℕ => (match b with | none => A0a | some lm => vs lm).ext) = fun b => match b with | none => A0a.ext | some lm => (vs lm).ext := by
    funext b; cases b <;> rfl
  obtain ⟨W, hp, hW'⟩ := hp (fun b : Option ℕ => (match b with | none => A0a | some lm => vs lm).ext)
  obtain ⟨vs', k1, k2, k3, k4, -⟩ := launch_ok Ev.L (vs := fun b => match b with | none => A0a | some lm => vs lm) hp (by
    rintro c ((⟨i, hi, lm, hlm, q, hq, k, hk, rfl⟩ | h) | ⟨i, hi, q, hq, k, hk, rfl⟩)
    · exact g2 lm hlm i hi q hq k hk
    · exact absurd h (by simp)
    · exact g1 i hi q hq k hk)
  rw [he] at k1
  refine ⟨vs' none, fun lm => vs' (some lm), congrArg (fun o => Option.bind o (fun q => some (q.2 none, fun lm => q.2 (some lm)))) k1, r1.of_ext (k2 none) (k3 none r1.1), fun i hi q hq k hk => ?_,
    fun lm hlm => (r2 lm hlm).of_ext (k2 (some lm)) (k3 (some lm) (r2 lm hlm).1)⟩
  rw [k4 (none, [i, q, k]) (Or.inr ⟨i, hi, q, hq, k, hk, rfl⟩)]
  show some (∑ lm ∈ Finset.range LM, W i lm q k * ma i lm k) = _
  congr 1
  exact Finset.sum_congr rfl (fun lm hlm => by rw [hW' i hi lm (Finset.mem_range.mp hlm) q hq k hk])

end poly

end Verif.Kokkos
