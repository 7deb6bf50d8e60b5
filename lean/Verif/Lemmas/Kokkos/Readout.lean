import Verif.Lemmas.Kokkos.Percep

/-! # Readouts of the Kokkos evaluator -/

namespace Verif.Par
open Prog

variable {ι K : Type} [DecidableEq ι] [AddCommMonoid K] {E : ι → List ℕ} {D : Set (ι × List ℕ)}

/-- Sequential loop, general form. -/
theorem Lc.forStep {n : ℕ} {t : ℕ → Prog ι K} {s : ℕ → ι × List ℕ → K → K} (F : ℕ → ι × List ℕ → K → K)
    (h0 : ∀ c ∈ D, ∀ x, F 0 c x = x) (ht : ∀ j < n, Lc E (t j) D (s j))
    (hs : ∀ j < n, ∀ c ∈ D, ∀ x, F (j + 1) c x = s j c (F j c x)) : Lc E (Prog.forP n t) D (F n) := by
  induction n with
  | zero => exact Lc.ret h0
  | succ n ih =>
    exact Lc.seq (ih (fun j hj => ht j (by omega)) (fun j hj => hs j (by omega))) (ht n (by omega)) (hs n (by omega))

end Verif.Par

namespace Verif.Kokkos
open Par Prog

variable {K : Type} [Field K] {N C nT : ℕ} {types : List ℕ} {typ : ℕ → ℕ}

theorem growLike_extent (v w : View K) : w.extent 0 ≤ (growLike v w).extent 0 := by
  unfold growLike
  split
  · exact le_rfl
  · omega

theorem addNode_spec (L : Launcher K) {v : ℕ → Option K} {x e : ℕ → K} {energies : View K} (hv : ∀ i < N, v i = some (x i))
    (hE : All energies N e) :
    ∃ w, L.launch1 (addNodeK N v (fun _ => energies.ext)) energies = some w ∧ All w N (fun i => e i + if i < N then x i else 0) := by
  have hp : ∀ E, Lc E (addNodeK N v E) (Par.ex N fun i => {((), [i])}) (fun c y => y + d1 x c.2) := by
    intro E
    refine Lc.parFor (fun i hi => Lc.opt (hv i hi) (Lc.plus (fun y => rfl))) ?_
    rintro i _ i' _ c rfl h
    simpa using h
  obtain ⟨w, h1, h2, h3, h4, h5⟩ := launch1_any L (hp _) (by
    rintro c ⟨i, hi, h⟩
    cases h
    exact ⟨_, hE.has hi⟩)
  refine ⟨w, h1, hE.step h2 h3 (fun i hi => ?_) (fun i hi => ⟨h5 _ ?_, ?_⟩)⟩
  · rw [h4 [i] (e i) ⟨i, hi, rfl⟩ (hE.has hi), if_pos hi]
    rfl
  · rintro ⟨j, hj, h⟩
    cases h
    omega
  · rw [if_neg (by omega), add_zero]

theorem readout1_spec (L : Launcher K) {ro1 : List K} {r1 e : ℕ → K} {LM NH : ℕ} {h h0 : ℕ → ℕ → ℕ → K} {H1 H1a energies : View K}
    (hN : N ≤ NH) (hL : 0 < LM) (hr : ∀ k < C, ro1[k]? = some (r1 k)) (hH : G3 H1 N LM C h) (hE : All energies N e)
    (hA : Room H1a [LM, C] NH) (hA' : G3 H1a NH LM C h0) :
    ∃ w H1a', L.launch2 (readout1K C N ro1 H1 (fun b => if b then H1a.ext else energies.ext)) energies H1a = some (w, H1a') ∧
      All w N (fun i => e i + if i < N then ∑ k ∈ Finset.range C, r1 k * h i 0 k else 0) ∧ Room H1a' [LM, C] NH ∧ H1a'.ext = H1a.ext ∧
      G3 H1a' NH LM C (fun i lm k => if i < N ∧ lm = 0 then r1 k else h0 i lm k) := by
  classical
  have hp : ∀ E, Lc E (readout1K C N ro1 H1 E) (Par.ex N fun i => {(false, [i])} ∪ Par.ex C fun k => {(true, [i, 0, k])})
      (fun c y => if c.1 then d3 (fun _ _ k => r1 k) c.2 else y + d1 (fun i => ∑ k ∈ Finset.range C, r1 k * h i 0 k) c.2) := by
    intro E
    refine Lc.parFor (fun i hi => ?_) ?_
    · refine Lc.congr (Lc.forStep (n := C)
        (s := fun j c x => if c.1 then (if c.2 = [i, 0, j] then r1 j else x) else x + r1 j * h i 0 j)
        (fun J c x => if c.1 then (if ∃ k < J, c.2 = [i, 0, k] then d3 (fun _ _ k => r1 k) c.2 else x)
          else x + ∑ k ∈ Finset.range J, r1 k * h i 0 k) ?_ (fun j hj => Lc.opt (a := (r1 j, h i 0 j)) ?_ ?_) ?_) ?_
      · rintro ⟨b, c⟩ hc x
        cases b <;> simp
      · rw [hr j hj, hH i hi 0 hL j hj]
        rfl
      · refine Lc.seq (q1 := fun c x => if c.1 then x else x + r1 j * h i 0 j)
          (q2 := fun c x => if c.1 then (if c.2 = [i, 0, j] then r1 j else x) else x)
          (Lc.frame (Lc.plus (q := fun c x => if c.1 then x else x + r1 j * h i 0 j) (fun x => rfl)) ?_ (fun _ _ _ => rfl) ?_)
          (Lc.frame (Lc.put (q := fun c x => if c.1 then (if c.2 = [i, 0, j] then r1 j else x) else x) (fun x => ?_)) ?_
            (fun _ _ _ => rfl) ?_) ?_
        · rintro c rfl; exact Or.inl rfl
        · rintro c (rfl | ⟨k, hk, rfl⟩) hn x
          · exact absurd rfl hn
          · rfl
        · simp
        · rintro c rfl; exact Or.inr ⟨j, hj, rfl⟩
        · rintro c (rfl | ⟨k, hk, rfl⟩) hn x
          · rfl
          · show (if [i, 0, k] = [i, 0, j] then r1 j else x) = x
            refine if_neg (fun h => hn ?_)
            show _ = _
            rw [h]
        · rintro ⟨b, c⟩ hc x
          cases b <;> rfl
      · rintro j hj c (rfl | ⟨k, hk, rfl⟩) x
        · show x + _ = x + _ + _
          rw [Finset.sum_range_succ, add_assoc]
        · simp only [if_true, List.cons.injEq, and_true, true_and, d3]
          by_cases e1 : k = j
          · subst e1
            rw [if_pos rfl, if_pos ⟨k, by omega, rfl⟩]
          · rw [if_neg e1]
            by_cases e2 : k < j
            · rw [if_pos ⟨k, by omega, rfl⟩, if_pos ⟨k, by omega, rfl⟩]
            · rw [if_neg (by rintro ⟨k', h1, h2⟩; omega), if_neg (by rintro ⟨k', h1, h2⟩; omega)]
      · rintro c (rfl | ⟨k, hk, rfl⟩) x
        · rfl
        · simp only [if_true]
          rw [if_pos ⟨k, hk, rfl⟩]
    · rintro i _ i' _ c (rfl | ⟨k, _, rfl⟩) (h | ⟨k', _, h⟩)
      · simpa using h
      · simp at h
      · simp at h
      · simp only [Set.mem_singleton_iff, Prod.mk.injEq, List.cons.injEq, true_and] at h
        exact h.1
  obtain ⟨w, H', h1, ⟨h2, h3⟩, ⟨h4, h5⟩, ⟨h6, h7⟩, h8, h9⟩ := launch2_any L (hp _) (by
    rintro c ⟨i, hi, h | ⟨k, hk, h⟩⟩
    · cases h; exact ⟨_, hE.has hi⟩
    · simp at h) (by
    rintro c ⟨i, hi, h | ⟨k, hk, h⟩⟩
    · simp at h
    · cases h; exact ⟨_, hA' i (hi.trans_le hN) 0 hL k hk⟩)
  refine ⟨w, H', h1, hE.step h2 h4 (fun i hi => ?_) (fun i hi => ⟨h8 _ ?_, ?_⟩), hA.of_ext h3 (h5 hA.1), h3, fun i hi lm hlm k hk => ?_⟩
  · rw [h6 [i] (e i) ⟨i, hi, Or.inl rfl⟩ (hE.has hi), if_pos hi]
    rfl
  · rintro ⟨j, hj, h | ⟨k, hk, h⟩⟩
    · cases h; omega
    · simp at h
  · rw [if_neg (by omega), add_zero]
  · by_cases e : i < N ∧ lm = 0
    · obtain ⟨e0, rfl⟩ := e
      rw [h7 [i, 0, k] _ ⟨i, e0, Or.inr ⟨k, hk, rfl⟩⟩ (hA' i hi 0 hL k hk)]
      dsimp only
      rw [if_pos rfl, if_pos (show i < N ∧ 0 = 0 from ⟨e0, rfl⟩)]
      rfl
    · dsimp only
      rw [if_neg e, h9, hA' i hi lm hlm k hk]
      rintro ⟨j, hj, h | ⟨k, hk, h⟩⟩
      · simp at h
      · simp only [Set.mem_singleton_iff, Prod.mk.injEq, List.cons.injEq, true_and] at h
        exact e ⟨h.1 ▸ hj, h.2.1⟩

theorem total_spec (L : Launcher K) {energies : View K} {e : ℕ → K} (hE : All energies N e) :
    ∃ q, L.launch (totalK N energies) (fun _ : Unit => View.new [0] 0) = some q ∧ q.1[0]? = some (∑ i ∈ Finset.range N, e i) := by
  have hr : Ret (fun _ : Unit => (View.new [0] (0 : K)).ext) (totalK N energies) [∑ i ∈ Finset.range N, e i] := by
    have := Ret.par (E := fun _ : Unit => (View.new [0] (0 : K)).ext) (n := N) (V := fun i => [e i]) (W := fun vs => [red 0 vs])
      (t := fun i => opt (energies.get [i]) (fun x => .ret [x])) (k := fun vs => .ret [red 0 vs])
      (fun i hi => Ret.opt (hE.has hi) (Ret.ret _)) (fun vs => Ret.ret _)
    rw [red_tab] at this
    exact this
  obtain ⟨vs', h1, -⟩ := launch_ok L (vs := fun _ : Unit => View.new [0] (0 : K)) (hr (fun _ => 0)) (fun _ h => h.elim)
  exact ⟨_, h1, rfl⟩

theorem computeReadouts_spec (V : Env K) (ht : ∀ i < N, types[i]? = some (typ i)) (hlt : ∀ i < N, typ i < nT) {atomE ro1 : List K}
    {aE r1 e : ℕ → K} (ha : ∀ t < nT, atomE[t]? = some (aE t)) (hr : ∀ k < C, ro1[k]? = some (r1 k)) {ex : K → K} {mlp : Percep K}
    {L LM NH : ℕ} {n : ℕ → ℕ} {W H AD : ℕ → ℕ → ℕ → K} (hN : N ≤ NH) (hp : PerOk mlp L n W) (hL : 1 ≤ L) (hn0 : n 0 = C) (hn : n L = 1)
    (hS : ∀ l b i, H (l + 1) b i = MLP.act ex mlp.scale (MLP.pre n W H l b i))
    (hAD : ∀ l b i, AD (l + 1) b i = MLP.actD ex mlp.scale (MLP.pre n W H l b i)) (hLM : 0 < LM) {h : ℕ → ℕ → ℕ → K}
    {H1 H2 energies H1a H2a ro2 : View K} {nv nd : ℕ → View K} (hH1 : Room H1 [LM, C] NH) (hH1' : G3 H1 N LM C h)
    (hH2 : MN H2 N C) (hH2' : G2 H2 N C (H 0)) (hE : All energies N e) (hH1a : Room H1a [LM, C] 0) (hH2a : M2 H2a)
    (hro2 : Room ro2 [] 0) (hnv : ∀ l ≤ L, M2 (nv l)) (hnd : ∀ l ≤ L, M2 (nd l)) :
    ∃ r, computeReadouts V C N types atomE ro1 ex mlp H1 H2 energies H1a H2a ro2 nv nd = some r ∧
      All r.energies N (fun i => e i + if i < N then
        aE (typ i) + ∑ k ∈ Finset.range C, r1 k * h i 0 k + MLP.outF n W H L i 0 else 0) ∧
      r.energy = ∑ i ∈ Finset.range N, (e i + (aE (typ i) + ∑ k ∈ Finset.range C, r1 k * h i 0 k + MLP.outF n W H L i 0)) ∧
      Room r.H1a [LM, C] NH ∧ H1.extent 0 ≤ r.H1a.extent 0 ∧ G3 r.H1a NH LM C (fun i lm k => if i < N ∧ lm = 0 then r1 k else 0) ∧
      MN r.H2a N C ∧ G2 r.H2a N C (MLP.Dk n W AD L (L - 1)) ∧ Room r.ro2 [] N ∧ (∀ l ≤ L, M2 (r.nv l)) ∧ ∀ l ≤ L, M2 (r.nd l) := by
  unfold computeReadouts
  dsimp only
  have a1 := hH1a.growLike hH1
  have a2 := growLike_extent H1a H1
  have a3 := G3.fill a1
  replace a1 := a1.fill 0
  replace a2 : H1.extent 0 ≤ ((growLike H1a H1).fill 0).extent 0 := a2
  have a4 := hH2a.fit N C
  have a5 := hro2.grow N
  generalize (growLike H1a H1).fill 0 = A at *
  generalize (if H2a.extent 0 < N ∨ H2a.extent 1 ≠ C then View.new [N, C] 0 else H2a) = G at *
  generalize grow ro2 N [] = R at *
  obtain ⟨w1, b1, b2⟩ := addNode_spec V.L (v := fun i => (types[i]?).bind (fun t => atomE[t]?)) (x := fun i => aE (typ i))
    (fun i hi => by rw [ht i hi, Option.bind_some, ha _ (hlt i hi)]) hE
  obtain ⟨w2, A', c1, c2, c3, c4, c5⟩ := readout1_spec V.L hN hLM hr hH1' b2 a1 a3
  subst hn0
  obtain ⟨f', g', nv', nd', d1, d2, d3, d4, d5, d6, d7, d8, d9⟩ := evaluateGradient_spec V hp hL hn (fun _ _ => rfl) (by rw [hn]; exact Nat.one_pos) hS hAD hH2 hH2' a5 a4 hnv hnd
  obtain ⟨w3, k1, k2⟩ := addNode_spec V.L (v := fun i => f'.get [i]) (x := fun i => MLP.outF n W H L i 0) d4 c2
  obtain ⟨q, l1, l2⟩ := total_spec V.L k2
  rw [b1, Option.bind_eq_bind, Option.bind_some, c1, Option.bind_eq_bind, Option.bind_some, d1, Option.bind_eq_bind, Option.bind_some]
  dsimp only
  rw [k1, Option.bind_eq_bind, Option.bind_some, l1, Option.bind_eq_bind, Option.bind_some, l2]
  refine ⟨_, rfl, k2.congr (fun i => ?_), ?_, c3, ?_, c5, a4.of_ext d5 d6, d7, a5.of_ext d2 d3, d8, d9⟩
  · by_cases hi : i < N
    · simp only [if_pos hi]; ring
    · simp only [if_neg hi]; ring
  · dsimp only
    refine Finset.sum_congr rfl (fun i hi => ?_)
    rw [Finset.mem_range] at hi
    simp only [if_pos hi]; ring
  · have : A'.extent 0 = A.extent 0 := by unfold View.extent; rw [c4]
    exact le_of_le_of_eq a2 this.symm

end Verif.Kokkos
