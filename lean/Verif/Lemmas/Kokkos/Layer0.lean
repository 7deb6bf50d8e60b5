import Verif.Lemmas.Kokkos.Basic
import Verif.Lemmas.MACE.Pipeline

/-! # Density of the first layer, normalisation by densities -/

namespace Verif.Kokkos
open Verif.Par Verif.Par.Prog Verif.MACE

section views
variable {K : Type}

/-- Rows of length `L * C`. -/
def GL (v : View K) (n L C : ℕ) (F : ℕ → ℕ → ℕ → K) : Prop := ∀ e < n, ∀ l < L, ∀ k < C, v.get [e, l * C + k] = some (F e l k)

/-- Rows of length `M` stored one after the other in a one-dimensional view. -/
def GF (v : View K) (n M : ℕ) (F : ℕ → ℕ → K) : Prop := ∀ e < n, ∀ lm < M, v.get [e * M + lm] = some (F e lm)

/-- Three rows for every edge. -/
def GD (v : View K) (n M : ℕ) (F : ℕ → ℕ → ℕ → K) : Prop := ∀ e < n, ∀ a < 3, ∀ lm < M, v.get [(3 * e + a) * M + lm] = some (F e a lm)

end views

variable {K : Type} [Field K]
  {g : Graph K} {nT NH : ℕ} {c : Spec.Conf K} {n : ℕ → ℕ} {X : ℕ → ℕ → K} {R : ℕ → K}

theorem sqrt_lt' {L lm : ℕ} (h : lm < (L + 1) * (L + 1)) : Nat.sqrt lm < L + 1 := Nat.sqrt_lt.mpr h

theorem nlen (hg : GOk g nT NH c n X R) : g.N ≤ g.nn.length := by
  by_contra hlt
  have := hg.nn g.nn.length (by omega)
  rw [List.getElem?_eq_none le_rfl] at this
  cases this

theorem edge_lt (hg : GOk g nT NH c n X R) {i j : ℕ} (hi : i < g.N) (hj : j < n i) : off g.nn i + j < g.E :=
  off_add_lt hi (hg.nn i hi) hj

theorem computeA0_spec (V : Env K) {C lmax M : ℕ} (hM : M = (lmax + 1) * (lmax + 1)) (hg : GOk g nT NH c n X R) {R0 Y A0 : View K}
    {ρ : ℕ → ℕ → ℕ → K} {y : ℕ → ℕ → K} (hR : GL R0 g.E (lmax + 1) C ρ) (hY : GF Y g.E M y) (hA : Room A0 [M, C] 0) :
    ∃ A, computeA0 V C M g R0 Y A0 = some A ∧ Room A [M, C] g.N ∧
      G3 A g.N M C (fun i lm k => ∑ e ∈ edges g.nn i, ρ e (Nat.sqrt lm) k * y e lm) := by
  unfold computeA0
  dsimp only
  set A1 := (if A0.extent 0 ≠ g.N then View.new [g.N, M, C] 0 else A0) with hA1
  have hr : Room A1 [M, C] g.N := by
    rw [hA1]
    split
    · exact Room.new _ _ _
    · rename_i h; exact hA.extent (by rw [not_not] at h; omega)
  rw [firstNeigh_spec V (nlen hg)]
  simp only [Option.bind_eq_bind, Option.bind_some]
  have hp : ∀ E, Lc E (A0K C M (tab g.N (off g.nn)) g R0 Y E) (ex g.N fun i => ex M fun lm => ex C fun k => {((), [i, lm, k])})
      (fun c => u3 (fun i lm k x => x + ∑ e ∈ edges g.nn i, ρ e (Nat.sqrt lm) k * y e lm) c.2) := by
    intro E
    refine Lc.parFor2 (fun i hi lm hlm => Lc.opt (both_edges hi (hg.nn i hi))
      (Lc.forAdd (δ := fun j c => d3 (fun i lm k => ρ (off g.nn i + j) (Nat.sqrt lm) k * y (off g.nn i + j) lm) c.2)
        (fun j hj => Lc.opt (hY _ (edge_lt hg hi hj) lm hlm) (Lc.parFor (fun k hk =>
          Lc.opt (hR _ (edge_lt hg hi hj) _ (sqrt_lt' (hM ▸ hlm)) k hk) (Lc.plus (fun x => rfl))) ?_)) ?_)) ?_
    · apart
    · rintro c ⟨k, hk, rfl⟩ x
      exact congrArg (x + ·) (sum_edges (hg.nn i hi) _).symm
    · apart
  obtain ⟨v', h1, h2, -, h4⟩ := launch1_box3 V.L hp (hr.fill 0)
  exact ⟨v', h1, h2, (h4 _ (G3.fill hr)).congr (fun i _ lm _ k _ => (zero_add _).symm)⟩

/-! ## Normalisation -/

theorem factorK_eq {ι : Type} [DecidableEq ι] {E : ι → List ℕ} {sv : View K} {nn : List ℕ} {N i m : ℕ} {s : ℕ → K} (hi : i < N)
    (hm : nn[i]? = some m) (hs : ∀ e < off nn N, sv.get [e, 0] = some (s e)) :
    (∀ j < m, Ret E (opt (sv.get [off nn i + j, 0]) (fun x => .ret [x]) : Prog ι K) [s (off nn i + j)]) ∧
      red 0 (tab m (fun j => [s (off nn i + j)])) + 1 = 1 + ∑ e ∈ edges nn i, s e := by
  refine ⟨fun j hj => Ret.opt (hs _ (off_add_lt hi hm hj)) (Ret.ret _), ?_⟩
  rw [red_tab, add_comm, ← sum_edges hm]
  rfl

theorem scaled_spec (V : Env K) {C M : ℕ} (hg : GOk g nT NH c n X R) {sv A : View K} {s sc : ℕ → K}
    (hs : ∀ e < g.E, sv.get [e, 0] = some (s e)) (hsc : ∀ i < g.N, sc i = 1 + ∑ e ∈ edges g.nn i, s e) (hA : Room A [M, C] g.N) :
    ∃ A', V.L.launch1 (scaledK C M (tab g.N (off g.nn)) g sv (fun _ => A.ext)) A = some A' ∧ Room A' [M, C] g.N ∧
      ∀ F, G3 A g.N M C F → G3 A' g.N M C (fun i lm k => F i lm k / sc i) := by
  have hp : ∀ E, Lc E (scaledK C M (tab g.N (off g.nn)) g sv E) (ex g.N fun i => ex M fun lm => ex C fun k => {((), [i, lm, k])})
      (fun c => u3 (fun i lm k x => x / sc i) c.2) := by
    intro E
    refine Lc.parFor (fun i hi => Lc.opt (both_edges hi (hg.nn i hi)) ?_) ?_
    · obtain ⟨h1, h2⟩ := factorK_eq (E := E) hi (hg.nn i hi) hs
      refine Lc.reduce h1 (Q := fun vs c x => x / (red 0 vs + 1)) (fun vs => Lc.parFor2 (fun lm hlm k hk => Lc.upd (fun x => rfl)) ?_) ?_
      · apart
      · rintro c ⟨lm, hlm, k, hk, rfl⟩ x
        show x / sc i = x / _
        rw [h2, hsc i hi]
    · apart
  obtain ⟨v', h1, h2, -, h4⟩ := launch1_box3 V.L hp hA
  exact ⟨v', h1, h2, h4⟩

/-- A launch on forces and a three-dimensional view. -/
theorem reverseScaled_spec (V : Env K) {C M : ℕ} {d : DConf K} (hg : GOk g nT NH c n d.X d.R) {sv sd A Aa forces : View K} {s dv sc : ℕ → K}
    {a aa : ℕ → ℕ → ℕ → K} {F : ℕ → ℕ → K}
    (hs : ∀ e < g.E, sv.get [e, 0] = some (s e)) (hd : ∀ e < g.E, sd.get [e, 0] = some (dv e))
    (hsc : ∀ i < g.N, sc i = 1 + ∑ e ∈ edges g.nn i, s e) (hA : G3 A g.N M C a) (hAa : Room Aa [M, C] g.N) (hAa' : G3 Aa g.N M C aa)
    (hF : Fc forces g.Ex F) :
    ∃ f' Aa', reverseScaled V C M g sv sd A forces Aa = some (f', Aa') ∧
      Fc f' g.Ex (fun e b => F e b + onE g.nn g.N (forceS M C d sc dv a aa) e b) ∧ Room Aa' [M, C] g.N ∧
      G3 Aa' g.N M C (fun i lm k => aa i lm k / sc i) := by
  unfold reverseScaled
  rw [firstNeigh_spec V (nlen hg)]
  simp only [Option.bind_eq_bind, Option.bind_some]
  let T : ℕ → Set (Bool × List ℕ) := fun i => fcells false g.nn (n i) i ∪ ex M fun lm => ex C fun k => {(true, [i, lm, k])}
  let f : Bool × List ℕ → K := fun c => if c.1 then d3 aa c.2 else d1 (fun p => F (p / 3) (p % 3)) c.2
  let G : Bool × List ℕ → K := fun c => if c.1 then d3 (fun i lm k => aa i lm k / sc i) c.2
    else d1 (fun p => F (p / 3) (p % 3) + onE g.nn g.N (forceS M C d sc dv a aa) (p / 3) (p % 3)) c.2
  have hp : ∀ E, Ok E (reverseScaledK C M (tab g.N (off g.nn)) g sv sd A E) (ex g.N T) f [] G := by
    intro E
    refine Ok.parFor T (fun c => Iff.rfl) (fun i hi i' hi' hne => ?_) (fun i hi => ?_)
    · refine Set.disjoint_left.mpr ?_
      rintro c (h | ⟨lm, hlm, k, hk, rfl⟩) (h' | ⟨lm', hlm', k', hk', h'⟩)
      · exact hne (fcells_apart hg.nn i hi i' hi' c h h')
      · obtain ⟨j, _, b, _, rfl⟩ := h
        simp at h'
      · obtain ⟨j, _, b, _, h⟩ := h'
        simp at h
      · simp only [Set.mem_singleton_iff, Prod.mk.injEq, List.cons.injEq, and_true, true_and] at h'
        exact hne h'.1
    · obtain ⟨h1, h2⟩ := factorK_eq (E := E) hi (hg.nn i hi) hs
      have inner : ∀ w : K, ∃ v, Ok E (.par (M * C) (fun lmk => Prog.get E true [i, lmk / C, lmk % C] (fun a =>
          opt (A.get [i, lmk / C, lmk % C]) (fun x => .ret [a * x])))
        (fun vs => Prog.seq
          (Prog.parFor (n i) (fun j => opt (both (sv.get [off g.nn i + j, 0]) (sd.get [off g.nn i + j, 0])) (fun fd =>
            opt (edgeVec g (off g.nn i + j)) (fun xr => three E false (off g.nn i + j) (fun a z => z + red 0 vs / w * fd.2 * xr.1 a / xr.2)))))
          (Prog.parFor2 M C (fun lm k => Prog.upd E true [i, lm, k] (fun x => x / w))))) (T i) f v
        (fun c => if c.1 then f c / w else f c + d1 (fun p => (∑ lm ∈ Finset.range M, ∑ k ∈ Finset.range C, aa i lm k * a i lm k) / w
          * dv (p / 3) * d.X (p / 3) (p % 3) / d.R (p / 3)) c.2) := by
        intro w
        have hlt : ∀ lmk < M * C, lmk / C < M ∧ lmk % C < C := by
          intro q hq
          have hC : 0 < C := Nat.pos_of_ne_zero (by rintro rfl; simp at hq)
          exact ⟨(Nat.div_lt_iff_lt_mul hC).mpr hq, Nat.mod_lt _ hC⟩
        refine Ok.reduceRd (T := fun lmk => {(true, [i, lmk / C, lmk % C])}) (V := fun lmk => [aa i (lmk / C) (lmk % C) * a i (lmk / C) (lmk % C)])
          (Q := fun vs c x => if c.1 then x / w else x + d1 (fun p => red 0 vs / w * dv (p / 3) * d.X (p / 3) (p % 3) / d.R (p / 3)) c.2)
          (fun lmk hl => ?_) (fun lmk hl => ?_) (fun q hq q' hq' => ?_) (fun vs => ?_) (fun c hc => ?_)
        · obtain ⟨h3, h4⟩ := hlt lmk hl
          have hx := hA i hi _ h3 _ h4
          exact Ok.get rfl (fun x => Confined.opt (fun _ _ => trivial)) (Sp.opt hx (Sp.ret (fun _ _ => rfl)))
        · rintro c rfl
          exact Or.inr ⟨_, (hlt lmk hl).1, _, (hlt lmk hl).2, rfl⟩
        · rintro c rfl h
          simp only [Set.mem_singleton_iff, Prod.mk.injEq, List.cons.injEq, and_true, true_and] at h
          rw [← Nat.div_add_mod q C, ← Nat.div_add_mod q' C, h.1, h.2]
        · refine Lc.seqDisj (Lc.parFor (fun j hj => ?_) ?_) (Lc.parFor2 (fun lm hlm k hk => Lc.upd (fun x => rfl)) ?_) ?_
          · have he := edge_lt hg hi hj
            obtain ⟨X', hX1, hX2⟩ := edgeVec_eq hg he
            refine Lc.opt (show both _ _ = some (s (off g.nn i + j), dv (off g.nn i + j)) by unfold both; rw [hs _ he, hd _ he]; rfl)
              (Lc.opt hX1 (Lc.three (fun b hb x => ?_)))
            show x + red 0 vs / w * dv ((3 * (off g.nn i + j) + b) / 3) * d.X ((3 * (off g.nn i + j) + b) / 3) ((3 * (off g.nn i + j) + b) % 3)
              / d.R ((3 * (off g.nn i + j) + b) / 3) = _
            rw [show (3 * (off g.nn i + j) + b) / 3 = off g.nn i + j by omega, show (3 * (off g.nn i + j) + b) % 3 = b by omega]
            dsimp only
            rw [hX2 b hb]
          · rintro j hj j' hj' c ⟨b, hb, rfl⟩ ⟨b', hb', h⟩
            simp only [Set.mem_singleton_iff, Prod.mk.injEq, List.cons.injEq, and_true, true_and] at h
            omega
          · apart
          · rintro c ⟨j, _, b, _, rfl⟩ ⟨lm, _, k, _, h⟩
            simp at h
        · have e : red 0 (tab (M * C) (fun lmk => [aa i (lmk / C) (lmk % C) * a i (lmk / C) (lmk % C)]))
              = ∑ lm ∈ Finset.range M, ∑ k ∈ Finset.range C, aa i lm k * a i lm k := by
            rw [red_tab]
            have := sum_flat M C (fun q => aa i (q / C) (q % C) * a i (q / C) (q % C))
            refine (Finset.sum_congr rfl (fun _ _ => rfl)).trans (this.trans ?_)
            refine Finset.sum_congr rfl (fun lm _ => Finset.sum_congr rfl (fun k hk => ?_))
            rw [flat_div (Finset.mem_range.mp hk), flat_mod (Finset.mem_range.mp hk)]
          rw [e]
      refine ⟨(inner (red 0 (tab (n i) (fun j => [s (off g.nn i + j)])) + 1)).choose, Ok.opt (both_edges hi (hg.nn i hi)) ?_⟩
      refine Ok.reduce (fun j hj => h1 j hj f) (fun vs => (inner (red 0 vs + 1)).choose_spec.1) ?_
      refine (inner _).choose_spec.2.congr (fun _ _ => rfl) ?_
      rw [h2, ← hsc i hi]
      rintro c (⟨j, hj, b, hb, rfl⟩ | ⟨lm, hlm, k, hk, rfl⟩)
      · show F _ _ + onE g.nn g.N (forceS M C d sc dv a aa) ((3 * (off g.nn i + j) + b) / 3) ((3 * (off g.nn i + j) + b) % 3) = F _ _ + _
        congr 1
        show _ = (∑ lm ∈ Finset.range M, ∑ k ∈ Finset.range C, aa i lm k * a i lm k) / sc i * dv ((3 * (off g.nn i + j) + b) / 3)
          * d.X ((3 * (off g.nn i + j) + b) / 3) ((3 * (off g.nn i + j) + b) % 3) / d.R ((3 * (off g.nn i + j) + b) / 3)
        rw [show (3 * (off g.nn i + j) + b) / 3 = off g.nn i + j by omega, show (3 * (off g.nn i + j) + b) % 3 = b by omega,
          onE_edge hi (hg.nn i hi) hj]
        rfl
      · rfl
  have hT : ∀ c, c ∈ ex g.N T ↔ (∃ p < 3 * g.E, c = (false, [p])) ∨ ∃ i < g.N, ∃ lm < M, ∃ k < C, c = (true, [i, lm, k]) := by
    intro c
    constructor
    · rintro ⟨i, hi, h | ⟨lm, hlm, k, hk, h⟩⟩
      · exact Or.inl ((mem_fcells hg.nn).mp ⟨i, hi, h⟩)
      · exact Or.inr ⟨i, hi, lm, hlm, k, hk, h⟩
    · rintro (h | ⟨i, hi, lm, hlm, k, hk, rfl⟩)
      · obtain ⟨i, hi, h⟩ := (mem_fcells hg.nn).mpr h
        exact ⟨i, hi, Or.inl h⟩
      · exact ⟨i, hi, Or.inr ⟨lm, hlm, k, hk, rfl⟩⟩
  have hle := hg.le
  obtain ⟨f', Aa', k1, ⟨k2, k3⟩, ⟨k4, k5⟩, ⟨k6, k7⟩, k8, k9⟩ := launch2_ok V.L (v := forces) (w := Aa) (hp _)
    (fun c hc => by
      rcases (hT _).mp hc with ⟨p, hp, h⟩ | ⟨i, hi, lm, hlm, k, hk, h⟩
      · simp only [Prod.mk.injEq, true_and] at h
        subst h
        exact All.has hF (by omega)
      · simp at h)
    (fun c hc => by
      rcases (hT _).mp hc with ⟨p, hp, h⟩ | ⟨i, hi, lm, hlm, k, hk, h⟩
      · simp at h
      · simp only [Prod.mk.injEq, true_and] at h
        subst h
        exact hAa' i hi lm hlm k hk)
  refine ⟨f', Aa', k1, Fc.step hF hg.le k2 k4 (fun p hp x hx => ?_) (fun p hp => k8 _ (fun h => ?_)), hAa.of_ext k3 (k5 hAa.1),
    fun i hi lm hlm k hk => k7 _ ((hT _).mpr (Or.inr ⟨i, hi, lm, hlm, k, hk, rfl⟩))⟩
  · rw [k6 _ ((hT _).mpr (Or.inl ⟨p, hp, rfl⟩))]
    have := All.has hF (p := p) (by unfold Graph.E at hle; omega)
    rw [hx, Option.some.injEq] at this
    rw [this]
    rfl
  · rcases (hT _).mp h with ⟨p', hp', h⟩ | ⟨i, hi, lm, hlm, k, hk, h⟩
    · simp only [Prod.mk.injEq, List.cons.injEq, and_true, true_and] at h
      subst h
      exact hp hp'
    · simp at h

/-! ## Forces of the first layer -/

/-- Force on an edge computed by `reverse_A0`. -/
def kforce0 (M C : ℕ) (d : DConf K) (ρ dρ : ℕ → ℕ → ℕ → K) (y : ℕ → ℕ → K) (A : ℕ → ℕ → ℕ → K) (i e a : ℕ) : K :=
  -∑ lm ∈ Finset.range M, ((∑ k ∈ Finset.range C, dρ e (Nat.sqrt lm) k * A i lm k) * (d.X e a / d.R e) * y e lm
    + (∑ k ∈ Finset.range C, ρ e (Nat.sqrt lm) k * A i lm k) * d.dY e a lm)

theorem reverseA0_spec (V : Env K) {C lmax M : ℕ} (hM : M = (lmax + 1) * (lmax + 1)) {d : DConf K} (hg : GOk g nT NH c n d.X d.R)
    {R0 R0d Y Yg A0a forces : View K} {ρ dρ : ℕ → ℕ → ℕ → K} {y : ℕ → ℕ → K} {aa : ℕ → ℕ → ℕ → K} {F : ℕ → ℕ → K}
    (hR : GL R0 g.E (lmax + 1) C ρ) (hRd : GL R0d g.E (lmax + 1) C dρ) (hY : GF Y g.E M y) (hYg : GD Yg g.E M d.dY)
    (hA : G3 A0a g.N M C aa) (hF : Fc forces g.Ex F) :
    ∃ f', reverseA0 V C M g R0 R0d Y Yg A0a forces = some f' ∧
      Fc f' g.Ex (fun e a => F e a + onE g.nn g.N (kforce0 M C d ρ dρ y aa) e a) := by
  unfold reverseA0
  rw [firstNeigh_spec V (nlen hg)]
  simp only [Option.bind_eq_bind, Option.bind_some]
  refine launch1_forces V.L hF hg.nn hg.le (fun E => Lc.parFor (fun i hi => Lc.opt (both_edges hi (hg.nn i hi))
    (Lc.forDisj (fun j hj => ?_) ?_)) (fcells_apart hg.nn))
  · have he := edge_lt hg hi hj
    dsimp only
    set e := off g.nn i + j with hedef
    obtain ⟨X', hX1, hX2⟩ := edgeVec_eq hg he
    refine Lc.opt hX1 ?_
    dsimp only
    refine Lc.reduce (V := fun lm => [(∑ k ∈ Finset.range C, dρ e (Nat.sqrt lm) k * aa i lm k) * (d.X e 0 / d.R e) * y e lm
          + (∑ k ∈ Finset.range C, ρ e (Nat.sqrt lm) k * aa i lm k) * d.dY e 0 lm,
        (∑ k ∈ Finset.range C, dρ e (Nat.sqrt lm) k * aa i lm k) * (d.X e 1 / d.R e) * y e lm
          + (∑ k ∈ Finset.range C, ρ e (Nat.sqrt lm) k * aa i lm k) * d.dY e 1 lm,
        (∑ k ∈ Finset.range C, dρ e (Nat.sqrt lm) k * aa i lm k) * (d.X e 2 / d.R e) * y e lm
          + (∑ k ∈ Finset.range C, ρ e (Nat.sqrt lm) k * aa i lm k) * d.dY e 2 lm])
      (Q := fun vs c x => d1 (fun p => x - red (p % 3) vs) c.2) (fun lm hlm => ?_) (fun vs => Lc.three (fun b hb x => ?_)) ?_
    · have hl := sqrt_lt' (hM ▸ hlm)
      refine Eq.mp (congrArg _ ?_) (Ret.par (V := fun k => [dρ e (Nat.sqrt lm) k * aa i lm k, ρ e (Nat.sqrt lm) k * aa i lm k])
        (W := fun vs => [red 0 vs * (d.X e 0 / d.R e) * y e lm + red 1 vs * d.dY e 0 lm,
          red 0 vs * (d.X e 1 / d.R e) * y e lm + red 1 vs * d.dY e 1 lm,
          red 0 vs * (d.X e 2 / d.R e) * y e lm + red 1 vs * d.dY e 2 lm]) (fun k hk => Ret.opt ?_ (Ret.ret _)) (fun vs => Ret.opt ?_ (Ret.ret _)))
      · rw [red_tab, red_tab]
        rfl
      · rw [hRd e he _ hl k hk, hA i hi lm hlm k hk, hR e he _ hl k hk]
        rfl
      · have h0 := hYg e he 0 (by omega) lm hlm
        have h1 := hYg e he 1 (by omega) lm hlm
        have h2 := hYg e he 2 (by omega) lm hlm
        rw [show (3 * e + 0) * M + lm = 3 * e * M + lm by ring] at h0
        rw [show (3 * e + 1) * M + lm = 3 * e * M + M + lm by ring] at h1
        rw [show (3 * e + 2) * M + lm = 3 * e * M + 2 * M + lm by ring] at h2
        rw [hY e he lm hlm, h0, h1, h2, hX2 0 (by omega), hX2 1 (by omega), hX2 2 (by omega)]
        rfl
    · show x - red ((3 * e + b) % 3) vs = x - red b vs
      rw [show (3 * e + b) % 3 = b by omega]
    · rintro c ⟨b, hb, rfl⟩ x
      dsimp only
      rw [hedef, addF_edge hi (hg.nn i hi) hj _ hb, ← hedef]
      show _ = x - red ((3 * e + b) % 3) (tab M _)
      rw [red_tab, sub_eq_add_neg]
      congr 1
      unfold kforce0
      congr 1
      refine Finset.sum_congr rfl (fun lm _ => ?_)
      rw [show (3 * e + b) % 3 = b by omega]
      interval_cases b <;> rfl
  · rintro j hj j' hj' c ⟨b, hb, rfl⟩ ⟨b', hb', h⟩
    simp only [Set.mem_singleton_iff, Prod.mk.injEq, List.cons.injEq, and_true, true_and] at h
    omega

end Verif.Kokkos
