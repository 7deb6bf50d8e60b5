import Verif.Lemmas.Kokkos.Layer0

/-! # Linear maps of both layers -/

namespace Verif.Par
open Prog

variable {ι K : Type} [DecidableEq ι] [Field K] {E : ι → List ℕ}

/-- A matrix product whose entries go to different cells. -/
theorem Lc.gemm {rows cols inner : ℕ} {a b : ℕ → ℕ → Option K} {out : ℕ → ℕ → K → Prog ι K} {A B : ℕ → ℕ → K}
    {T : ℕ → ℕ → Set (ι × List ℕ)} {q : ι × List ℕ → K → K} (ha : ∀ x < rows, ∀ z < inner, a x z = some (A x z))
    (hb : ∀ z < inner, ∀ y < cols, b z y = some (B z y))
    (ho : ∀ x < rows, ∀ y < cols, Lc E (out x y (∑ z ∈ Finset.range inner, A x z * B z y)) (T x y) q)
    (hd : ∀ i < rows, ∀ j < cols, ∀ i' < rows, ∀ j' < cols, ∀ c, c ∈ T i j → c ∈ T i' j' → i = i' ∧ j = j') :
    Lc E (Kokkos.gemmK rows cols inner a b out) (ex rows fun x => ex cols (T x)) q := by
  refine Lc.parFor2 (fun x hx y hy => Lc.opt (sumO_eq (fun z hz => ?_)) (ho x hx y hy)) hd
  rw [ha x hx z hz, hb z hz y hy]
  rfl

end Verif.Par

namespace Verif.Kokkos
open Verif.Par Verif.Par.Prog Verif.MACE

variable {K : Type} [Field K] {N C : ℕ}

/-- Cells of the rows of one angular momentum. -/
theorem lm_apart {ι : Type} {b : ι} {Lmax N C : ℕ} : ∀ i < N, ∀ l < Lmax + 1, ∀ i' < N, ∀ l' < Lmax + 1, ∀ c : ι × List ℕ,
    c ∈ (ex (2 * l + 1) fun m => ex C fun k => {(b, [i, l * l + m, k])}) → c ∈ (ex (2 * l' + 1) fun m => ex C fun k => {(b, [i', l' * l' + m, k])}) →
      i = i' ∧ l = l' := by
  rintro i hi l hl i' hi' l' hl' c ⟨m, hm, k, hk, rfl⟩ ⟨m', hm', k', hk', h⟩
  simp only [Set.mem_singleton_iff, Prod.mk.injEq, List.cons.injEq, and_true, true_and] at h
  refine ⟨h.1, ?_⟩
  rw [← sqrt_lm hm, ← sqrt_lm hm', h.2.1]

theorem row_apart {ι : Type} {b : ι} {n C i l : ℕ} : ∀ m < n, ∀ k < C, ∀ m' < n, ∀ k' < C, ∀ c : ι × List ℕ,
    c ∈ ({(b, [i, l * l + m, k])} : Set (ι × List ℕ)) → c ∈ ({(b, [i, l * l + m', k'])} : Set (ι × List ℕ)) → m = m' ∧ k = k' := by
  rintro m hm k hk m' hm' k' hk' c rfl h
  simp only [Set.mem_singleton_iff, Prod.mk.injEq, List.cons.injEq, and_true, true_and] at h
  omega

/-- Products of the blocks of rows with matrices that depend on the angular momentum. -/
theorem blocks_lc {E : Unit → List ℕ} {Lmax : ℕ} {inner : ℕ → ℕ} {a b : ℕ → ℕ → ℕ → ℕ → Option K} {A B : ℕ → ℕ → ℕ → ℕ → K}
    {F : ℕ → ℕ → ℕ → K}
    (ha : ∀ i < N, ∀ l < Lmax + 1, ∀ m < 2 * l + 1, ∀ z < inner l, a i l m z = some (A i l m z))
    (hb : ∀ i < N, ∀ l < Lmax + 1, ∀ z < inner l, ∀ k < C, b i l z k = some (B i l z k))
    (hF : ∀ i < N, ∀ l < Lmax + 1, ∀ m < 2 * l + 1, ∀ k < C, F i (l * l + m) k = ∑ z ∈ Finset.range (inner l), A i l m z * B i l z k) :
    Lc E (parFor2 N (Lmax + 1) (fun i l => gemmK (2 * l + 1) C (inner l) (a i l) (b i l) (fun m q w => put E () [i, l * l + m, q] w)))
      (ex N fun i => ex ((Lmax + 1) * (Lmax + 1)) fun lm => ex C fun k => {((), [i, lm, k])}) (fun c => u3 (fun i lm k _ => F i lm k) c.2) := by
  have : (ex N fun i => ex ((Lmax + 1) * (Lmax + 1)) fun lm => ex C fun k => {((), [i, lm, k])} : Set (Unit × List ℕ))
      = ex N fun i => ex (Lmax + 1) fun l => ex (2 * l + 1) fun m => ex C fun k => {((), [i, l * l + m, k])} := by
    congr 1
    funext i
    exact (ex_lm Lmax (fun lm => ex C fun k => {((), [i, lm, k])})).symm
  rw [this]
  exact Lc.parFor2 (fun i hi l hl => Lc.gemm (ha i hi l hl) (hb i hi l hl) (fun m hm k hk => Lc.put (fun x => hF i hi l hl m hm k hk))
    row_apart) lm_apart

theorem computeH1_spec (V : Env K) {Lmax LM : ℕ} (hLM : LM = (Lmax + 1) * (Lmax + 1)) {H1w M0 H1 : View K} {w m : ℕ → ℕ → ℕ → K}
    (hw : G3 H1w (Lmax + 1) C C w) (hM : Room M0 [LM, C] N) (hM' : G3 M0 N LM C m) (hH : Room H1 [LM, C] 0) :
    ∃ H1', computeH1 V C Lmax N H1w M0 H1 = some H1' ∧ Room H1' [LM, C] N ∧
      G3 H1' N LM C (fun i LM k => ∑ k' ∈ Finset.range C, m i LM k' * w (Nat.sqrt LM) k' k) := by
  subst hLM
  unfold computeH1
  have hr := hH.growLike hM
  obtain ⟨v', h1, h2, -, h4⟩ := launch1_box3 V.L (fun E => blocks_lc (E := E) (Lmax := Lmax) (inner := fun _ => C)
    (F := fun i LM k => ∑ k' ∈ Finset.range C, m i LM k' * w (Nat.sqrt LM) k' k)
    (fun i hi l hl mm hmm z hz => hM' i hi _ (lm_lt hl hmm) z hz) (fun i hi l hl z hz k hk => hw l hl z hz k hk)
    (fun i hi l hl mm hmm k hk => by rw [sqrt_lm hmm])) hr
  obtain ⟨F, hF⟩ := hr.get3
  exact ⟨v', h1, h2, h4 F hF⟩

theorem reverseH1_spec (V : Env K) {Lmax LM : ℕ} (hLM : LM = (Lmax + 1) * (Lmax + 1)) {H1w M0 H1a M0a : View K} {w h : ℕ → ℕ → ℕ → K}
    (hw : G3 H1w (Lmax + 1) C C w) (hM : Room M0 [LM, C] N) (hH : G3 H1a N LM C h) (hMa : Room M0a [LM, C] 0) :
    ∃ M0', reverseH1 V C Lmax N H1w M0 H1a M0a = some M0' ∧ Room M0' [LM, C] N ∧
      G3 M0' N LM C (fun i LM k => ∑ k' ∈ Finset.range C, h i LM k' * w (Nat.sqrt LM) k k') := by
  subst hLM
  unfold reverseH1
  have hr := hMa.growLike hM
  obtain ⟨v', h1, h2, -, h4⟩ := launch1_box3 V.L (fun E => blocks_lc (E := E) (Lmax := Lmax) (inner := fun _ => C)
    (F := fun i LM k => ∑ k' ∈ Finset.range C, h i LM k' * w (Nat.sqrt LM) k k')
    (fun i hi l hl mm hmm z hz => hH i hi _ (lm_lt hl hmm) z hz)
    (B := fun _ l z k => w l k z) (fun i hi l hl z hz k hk => hw l hl k hk z hz)
    (fun i hi l hl mm hmm k hk => by rw [sqrt_lm hmm])) hr
  obtain ⟨F, hF⟩ := hr.get3
  exact ⟨v', h1, h2, h4 F hF⟩

/-! ## `compute_A1`, `reverse_A1` -/

variable {W : Spec.Net K}

/-- A position of the storage of a three-dimensional view. -/
theorem G3.raw {v : View K} {N M C : ℕ} {F : ℕ → ℕ → ℕ → K} (hr : Room v [M, C] N) (h : G3 v N M C F) {i j k : ℕ} (hi : i < N)
    (hj : j < M) (hk : k < C) : v.data[(i * v.extent 1 + j) * v.extent 2 + k]? = some (F i j k) := by
  obtain ⟨x, hx, hle⟩ := hr.ext (by omega)
  have e1 : v.extent 1 = M := by unfold View.extent; rw [hx]; rfl
  have e2 : v.extent 2 = C := by unfold View.extent; rw [hx]; rfl
  have := h i hi j hj k hk
  unfold View.get at this
  rw [hx, flat_three (by omega) hj hk, Option.bind_some] at this
  rw [e1, e2, this]

theorem computeA1_spec (V : Env K) {phil : List ℕ} (hb : ∀ l < W.lmax + 1, blockOf phil l = some (W.base l, W.nE l)) {A1w : ℕ → View K}
    (hw : ∀ l < W.lmax + 1, ∀ e < W.nE l, ∀ k' < W.C, ∀ k < W.C, (A1w l).get [e * W.C + k', k] = some (W.mix1 l e k' k))
    {Phi1 A1 : View K} {p : ℕ → ℕ → ℕ → K} (hP : Room Phi1 [W.nOut, W.C] N) (hP' : G3 Phi1 N W.nOut W.C p) (hA : Room A1 [W.M, W.C] 0) :
    ∃ A', computeA1 V W.C W.M W.lmax N phil A1w Phi1 A1 = some A' ∧ Room A' [W.M, W.C] N ∧
      G3 A' N W.M W.C (fun i lm k => ∑ e ∈ Finset.range (W.nE (Nat.sqrt lm)), ∑ k' ∈ Finset.range W.C,
        p i (W.base (Nat.sqrt lm) + (lm - Nat.sqrt lm * Nat.sqrt lm) * W.nE (Nat.sqrt lm) + e) k' * W.mix1 (Nat.sqrt lm) e k' k) := by
  unfold computeA1
  have hr := hA.grow N
  have hp : ∀ E, Lc E (A1K W.C W.lmax N phil A1w Phi1 E) (ex N fun i => ex W.M fun lm => ex W.C fun k => {((), [i, lm, k])})
      (fun c => u3 (fun i lm k _ => ∑ e ∈ Finset.range (W.nE (Nat.sqrt lm)), ∑ k' ∈ Finset.range W.C,
        p i (W.base (Nat.sqrt lm) + (lm - Nat.sqrt lm * Nat.sqrt lm) * W.nE (Nat.sqrt lm) + e) k' * W.mix1 (Nat.sqrt lm) e k' k) c.2) := by
    intro E
    have : (ex N fun i => ex W.M fun lm => ex W.C fun k => {((), [i, lm, k])} : Set (Unit × List ℕ))
        = ex N fun i => ex (W.lmax + 1) fun l => ex (2 * l + 1) fun m => ex W.C fun k => {((), [i, l * l + m, k])} := by
      congr 1
      funext i
      exact (ex_lm W.lmax (fun lm => ex W.C fun k => {((), [i, lm, k])})).symm
    rw [this]
    refine Lc.parFor2 (fun i hi l hl => Lc.opt (hb l hl) (Lc.gemm (A := fun m x => p i (W.base l + m * W.nE l + x / W.C) (x % W.C))
      (B := fun x k => W.mix1 l (x / W.C) (x % W.C) k) (fun m hm x hx => ?_) (fun x hx k hk => ?_) (fun m hm k hk => Lc.put (fun _ => ?_))
      row_apart)) lm_apart
    · obtain ⟨e, k', he, hk', rfl⟩ := flat_decomp hx
      beta_reduce
      rw [flat_div hk', flat_mod hk', ← hP'.raw hP hi (out_lt W hl hm he) hk']
      have e2 : Phi1.extent 2 = W.C := by
        obtain ⟨x, hx, _⟩ := hP.ext (by omega); unfold View.extent; rw [hx]; rfl
      unfold rawPos
      rw [e2]
      congr 1
      ring
    · obtain ⟨e, k', he, hk', rfl⟩ := flat_decomp hx
      beta_reduce
      rw [flat_div hk', flat_mod hk']
      exact hw l hl e he k' hk' k hk
    · show (∑ e ∈ Finset.range (W.nE (Nat.sqrt (l * l + m))), ∑ k' ∈ Finset.range W.C,
        p i (W.base (Nat.sqrt (l * l + m)) + (l * l + m - Nat.sqrt (l * l + m) * Nat.sqrt (l * l + m)) * W.nE (Nat.sqrt (l * l + m)) + e) k'
          * W.mix1 (Nat.sqrt (l * l + m)) e k' k) = _
      rw [sqrt_lm hm, Nat.add_sub_cancel_left]
      dsimp only
      rw [sum_flat]
      refine Finset.sum_congr rfl (fun e _ => Finset.sum_congr rfl (fun k' hk' => ?_))
      rw [flat_div (Finset.mem_range.mp hk'), flat_mod (Finset.mem_range.mp hk')]
  obtain ⟨v', h1, h2, -, h4⟩ := launch1_box3 V.L hp hr
  obtain ⟨F, hF⟩ := hr.get3
  exact ⟨v', h1, h2, h4 F hF⟩

theorem reverseA1_spec (V : Env K) {phil : List ℕ} (hb : ∀ l < W.lmax + 1, blockOf phil l = some (W.base l, W.nE l)) {A1wt : ℕ → View K}
    (hw : ∀ l < W.lmax + 1, ∀ e < W.nE l, ∀ k' < W.C, ∀ k < W.C, (A1wt l).get [k, e * W.C + k'] = some (W.mix1 l e k' k))
    {A1a dPhi1 : View K} {A : ℕ → ℕ → ℕ → K} (hA : G3 A1a N W.M W.C A) (hD : Room dPhi1 [W.nOut, W.C] 0) :
    ∃ D, reverseA1 V W.C W.nOut W.lmax N phil A1wt A1a dPhi1 = some D ∧ Room D [W.nOut, W.C] N ∧ G3 D N W.nOut W.C (phi1a W A) := by
  unfold reverseA1
  dsimp only
  have hr := hD.grow N
  generalize grow dPhi1 N [W.nOut, W.C] = v at *
  have hpos : ∀ i < N, ∀ l < W.lmax + 1, ∀ m < 2 * l + 1, ∀ e < W.nE l, ∀ k' < W.C,
      rawPos v i (W.base l) (W.nE l * W.C) m (e * W.C + k') = (i * W.nOut + (W.base l + m * W.nE l + e)) * W.C + k' := by
    intro i hi l hl m hm e he k' hk'
    obtain ⟨x, hx, _⟩ := hr.ext (by omega)
    have e1 : v.extent 1 = W.nOut := by unfold View.extent; rw [hx]; rfl
    have e2 : v.extent 2 = W.C := by unfold View.extent; rw [hx]; rfl
    unfold rawPos
    rw [e1, e2]
    ring
  have hinj : ∀ i < N, ∀ l < W.lmax + 1, ∀ m < 2 * l + 1, ∀ e < W.nE l, ∀ k' < W.C, ∀ i' < N, ∀ l' < W.lmax + 1, ∀ m' < 2 * l' + 1,
      ∀ e' < W.nE l', ∀ k'' < W.C, rawPos v i (W.base l) (W.nE l * W.C) m (e * W.C + k') = rawPos v i' (W.base l') (W.nE l' * W.C) m' (e' * W.C + k'') →
        i = i' ∧ l = l' ∧ m = m' ∧ e = e' ∧ k' = k'' := by
    intro i hi l hl m hm e he k' hk' i' hi' l' hl' m' hm' e' he' k'' hk'' h
    rw [hpos i hi l hl m hm e he k' hk', hpos i' hi' l' hl' m' hm' e' he' k'' hk''] at h
    obtain ⟨h0, h1⟩ := (flat_inj hk' hk'').mp h
    obtain ⟨hi0, h2⟩ := (flat_inj (out_lt W hl hm he) (out_lt W hl' hm' he')).mp h0
    have hl' : l = l' := by rw [← outL_eq W hl hm he, h2, outL_eq W hl' hm' he']
    subst hl'
    obtain ⟨h3, h4⟩ := (flat_inj he he').mp (show m * W.nE l + e = m' * W.nE l + e' by omega)
    exact ⟨hi0, rfl, h3, h4, h1⟩
  let val : ℕ → K := fun p => phi1a W A (p / W.C / W.nOut) (p / W.C % W.nOut) (p % W.C)
  have hp : ∀ E, Lc E (reverseA1K W.C W.lmax N phil A1wt A1a v E) (ex N fun i => ex (W.lmax + 1) fun l => ex (2 * l + 1) fun m =>
      ex (W.nE l * W.C) fun x => {((), [rawPos v i (W.base l) (W.nE l * W.C) m x])}) (fun c _ => d1 val c.2) := by
    intro E
    refine Lc.parFor2 (fun i hi l hl => Lc.opt (hb l hl) (Lc.gemm (A := fun m k => A i (l * l + m) k)
      (B := fun k x => W.mix1 l (x / W.C) (x % W.C) k) (fun m hm k hk => hA i hi _ (lm_lt hl hm) k hk) (fun k hk x hx => ?_)
      (fun m hm x hx => Lc.put (fun _ => ?_)) ?_)) ?_
    · obtain ⟨e, k', he, hk', rfl⟩ := flat_decomp hx
      beta_reduce
      rw [flat_div hk', flat_mod hk']
      exact hw l hl e he k' hk' k hk
    · obtain ⟨e, k', he, hk', rfl⟩ := flat_decomp hx
      dsimp only
      rw [hpos i hi l hl m hm e he k' hk']
      show phi1a W A _ _ _ = _
      rw [flat_div hk', flat_mod hk', flat_div (out_lt W hl hm he), flat_mod (out_lt W hl hm he), phi1a_eq W A hl hm he]
      refine Finset.sum_congr rfl (fun k _ => ?_)
      rw [flat_div hk', flat_mod hk']
    · rintro m hm x hx m' hm' x' hx' c rfl h
      simp only [Set.mem_singleton_iff, Prod.mk.injEq, List.cons.injEq, and_true, true_and] at h
      obtain ⟨e, k', he, hk', rfl⟩ := flat_decomp hx
      obtain ⟨e', k'', he', hk'', rfl⟩ := flat_decomp hx'
      obtain ⟨-, -, h1, h2, h3⟩ := hinj i hi l hl m hm e he k' hk' i hi l hl m' hm' e' he' k'' hk'' h
      exact ⟨h1, by rw [h2, h3]⟩
    · rintro i hi l hl i' hi' l' hl' c ⟨m, hm, x, hx, rfl⟩ ⟨m', hm', x', hx', h⟩
      simp only [Set.mem_singleton_iff, Prod.mk.injEq, List.cons.injEq, and_true, true_and] at h
      obtain ⟨e, k', he, hk', rfl⟩ := flat_decomp hx
      obtain ⟨e', k'', he', hk'', rfl⟩ := flat_decomp hx'
      obtain ⟨h1, h2, -⟩ := hinj i hi l hl m hm e he k' hk' i' hi' l' hl' m' hm' e' he' k'' hk'' h
      exact ⟨h1, h2⟩
  have hlen : ∀ i < N, ∀ o < W.nOut, ∀ k < W.C, (i * W.nOut + o) * W.C + k < v.data.length := by
    intro i hi o ho k hk
    obtain ⟨x, hx, hle⟩ := hr.ext (by omega)
    have := flat_lt_prod (flat_three (show i < x by omega) ho hk)
    rw [hr.1, hx]
    exact this
  obtain ⟨v', h1, h2, h3, h4, -⟩ := launch1_any V.L (v := ⟨[v.data.length], v.data⟩) (hp _) (by
    rintro c ⟨i, hi, l, hl, m, hm, x, hx, h⟩
    simp only [Set.mem_singleton_iff, Prod.mk.injEq, true_and] at h
    subst h
    obtain ⟨e, k', he, hk', rfl⟩ := flat_decomp hx
    rw [hpos i hi l hl m hm e he k' hk']
    have := hlen i hi _ (out_lt W hl hm he) k' hk'
    exact View.exists_get (by simp [View.Ok]) (flat_one this))
  have hok : v'.Ok := h3 (by simp [View.Ok])
  have hlen' : v'.data.length = v.data.length := by rw [hok, h2]; simp
  refine ⟨⟨v.ext, v'.data⟩, by rw [h1]; rfl, hr.of_ext rfl ?_, fun i hi o ho k hk => ?_⟩
  · show v'.data.length = _
    rw [hlen', hr.1]
  · obtain ⟨l, m, e, hl, hm, he, rfl⟩ := out_decomp W ho
    obtain ⟨x, hx, hle⟩ := hr.ext (by omega)
    have hlt := hlen i hi _ ho k hk
    have hg : View.get ⟨[v.data.length], v.data⟩ [(i * W.nOut + (W.base l + m * W.nE l + e)) * W.C + k] = some v.data[(i * W.nOut + (W.base l + m * W.nE l + e)) * W.C + k] := by
      unfold View.get
      dsimp only
      rw [flat_one hlt, Option.bind_some, List.getElem?_eq_getElem hlt]
    have := h4 _ _ ⟨i, hi, l, hl, m, hm, e * W.C + k, flat_lt he hk, by
      show _ = _
      rw [hpos i hi l hl m hm e he k hk]⟩ hg
    unfold View.get at this ⊢
    rw [h2, flat_one hlt, Option.bind_some] at this
    dsimp only
    rw [hx, flat_three (by omega) ho hk, Option.bind_some, this]
    show some (phi1a W A _ _ _) = _
    rw [flat_div hk, flat_mod hk, flat_div ho, flat_mod ho]

/-! ## `compute_H2`, `reverse_H2` -/

variable {nT : ℕ} {types : List ℕ} {typ : ℕ → ℕ}

/-- Two-dimensional. -/
def M2 (v : View K) : Prop := v.Ok ∧ ∃ a b, v.ext = [a, b]

/-- At least `B` rows of length `n`. -/
def MN (v : View K) (B n : ℕ) : Prop := v.Ok ∧ ∃ a, v.ext = [a, n] ∧ B ≤ a

omit [Field K] in
theorem MN.m2 {v : View K} {B n : ℕ} (h : MN v B n) : M2 v := by
  obtain ⟨h1, a, h2, _⟩ := h
  exact ⟨h1, a, n, h2⟩

omit [Field K] in
theorem MN.room {v : View K} {B n : ℕ} (h : MN v B n) : Room v [n] B := by
  obtain ⟨h1, a, h2, h3⟩ := h
  exact ⟨h1, a, [n], h2, h3, Or.inr rfl⟩

omit [Field K] in
theorem MN.of_ext {v w : View K} {B n : ℕ} (h : MN v B n) (he : w.ext = v.ext) (hw : w.Ok) : MN w B n := by
  obtain ⟨_, a, h2, h3⟩ := h
  exact ⟨hw, a, he.trans h2, h3⟩

/-- The reallocation of `H2`, `H2_adj`. -/
theorem M2.fit {v : View K} (h : M2 v) (B n : ℕ) : MN (if v.extent 0 < B ∨ v.extent 1 ≠ n then View.new [B, n] 0 else v) B n := by
  obtain ⟨h1, a, b, h2⟩ := h
  split
  · exact ⟨View.new_ok _ _, B, rfl, le_rfl⟩
  · rename_i hn
    unfold View.extent at hn
    rw [h2] at hn
    simp only [List.getD_cons_zero, List.getD_cons_succ, not_or, not_not, not_lt] at hn
    exact ⟨h1, a, by rw [h2, hn.2], hn.1⟩

theorem computeH2_spec (V : Env K) (ht : ∀ i < N, types[i]? = some (typ i)) (hlt : ∀ i < N, typ i < nT) {wH1 : View K} {wM1 : List K}
    {w2h : ℕ → ℕ → ℕ → K} {w2m : ℕ → ℕ → K} (hw : ∀ t < nT, ∀ k' < C, ∀ k < C, wH1.get [t, k' * C + k] = some (w2h t k' k))
    (hw' : ∀ k' < C, ∀ k < C, wM1[k' * C + k]? = some (w2m k' k)) {H1 M1 H2 : View K} {LM : ℕ} {h : ℕ → ℕ → ℕ → K} {m : ℕ → ℕ → K}
    (hL : 0 < LM) (hH : G3 H1 N LM C h) (hM : G2 M1 N C m) (hH2 : M2 H2) :
    ∃ H2', computeH2 V C N types wH1 wM1 H1 M1 H2 = some H2' ∧ MN H2' N C ∧
      G2 H2' N C (fun i k => ∑ k' ∈ Finset.range C, h i 0 k' * w2h (typ i) k' k + ∑ k' ∈ Finset.range C, m i k' * w2m k' k) := by
  unfold computeH2
  dsimp only
  have hm0 := hH2.fit N C
  have hm : MN ((if H2.extent 0 < N ∨ H2.extent 1 ≠ C then View.new [N, C] 0 else H2).fill 0) N C :=
    hm0.of_ext rfl (View.fill_ok hm0.1 0)
  have hr := hm.room
  have hg := G2.fill hm0.room
  clear hm0
  generalize (if H2.extent 0 < N ∨ H2.extent 1 ≠ C then View.new [N, C] 0 else H2).fill 0 = v at *
  have hp1 : ∀ E, Lc E (H2fromH1K C N types wH1 H1 E) (ex N fun i => ex C fun k => {((), [i, k])})
      (fun c => u2 (fun i k x => x + ∑ k' ∈ Finset.range C, h i 0 k' * w2h (typ i) k' k) c.2) := by
    intro E
    refine Lc.parFor2 (fun i hi k hk => Lc.forAdd (δ := fun k' c => d2 (fun i k => h i 0 k' * w2h (typ i) k' k) c.2)
      (fun k' hk' => Lc.opt (a := w2h (typ i) k' k * h i 0 k') ?_ (Lc.plus (fun x => ?_))) ?_) ?_
    · rw [ht i hi, hH i hi 0 hL k' hk']
      simp only [Option.bind_eq_bind, Option.bind_some]
      rw [hw _ (hlt i hi) k' hk' k hk]
      rfl
    · exact congrArg (x + ·) (mul_comm _ _)
    · rintro c rfl x; rfl
    · apart
  have hp2 : ∀ E, Lc E (H2fromM1K C N wM1 M1 E) (ex N fun i => ex C fun k => {((), [i, k])})
      (fun c => u2 (fun i k x => x + ∑ k' ∈ Finset.range C, m i k' * w2m k' k) c.2) := by
    intro E
    refine Lc.parFor2 (fun i hi k hk => Lc.forAdd (δ := fun k' c => d2 (fun i k => m i k' * w2m k' k) c.2)
      (fun k' hk' => Lc.opt (a := w2m k' k * m i k') ?_ (Lc.plus (fun x => ?_))) ?_) ?_
    · rw [hM i hi k' hk', hw' k' hk' k hk]
      rfl
    · exact congrArg (x + ·) (mul_comm _ _)
    · rintro c rfl x; rfl
    · apart
  obtain ⟨v1, a1, a2, a3, a4⟩ := launch1_box2 V.L hp1 hr
  obtain ⟨v2, b1, b2, b3, b4⟩ := launch1_box2 V.L hp2 a2
  refine ⟨v2, ?_, hm.of_ext (b3.trans a3) b2.1, (b4 _ (a4 _ hg)).congr (fun i _ k _ => by rw [zero_add])⟩
  rw [a1]
  exact b1

theorem Room.resizeLike {v w : View K} {ns : List ℕ} {n : ℕ} (h : Room v ns n) (hle : w.extent 0 ≤ v.extent 0) : resizeLike v w = v := by
  unfold Verif.Kokkos.resizeLike
  exact if_neg (by omega)

theorem reverseH2_spec (V : Env K) (ht : ∀ i < N, types[i]? = some (typ i)) (hlt : ∀ i < N, typ i < nT) {wH1 : View K} {wM1 : List K}
    {w2h : ℕ → ℕ → ℕ → K} {w2m : ℕ → ℕ → K} (hw : ∀ t < nT, ∀ k' < C, ∀ k < C, wH1.get [t, k' * C + k] = some (w2h t k' k))
    (hw' : ∀ k' < C, ∀ k < C, wM1[k' * C + k]? = some (w2m k' k)) {H1 M1 H2a H1a M1a : View K} {LM NH : ℕ} {h : ℕ → ℕ → ℕ → K} {d : ℕ → ℕ → K}
    (hN : N ≤ NH) (hL : 0 < LM) (hH : Room H1a [LM, C] NH) (hle : H1.extent 0 ≤ H1a.extent 0) (hH' : G3 H1a NH LM C h) (hM1 : Room M1 [C] N)
    (hM : Room M1a [C] 0) (hd : G2 H2a N C d) :
    ∃ H' M', reverseH2 V C N types wH1 wM1 false H1 M1 H2a H1a M1a = some (H', M') ∧ Room H' [LM, C] NH ∧ H1.extent 0 ≤ H'.extent 0 ∧
      G3 H' NH LM C (fun i lm k => h i lm k + if i < N ∧ lm = 0 then ∑ k' ∈ Finset.range C, w2h (typ i) k k' * d i k' else 0) ∧ Room M' [C] N ∧
      G2 M' N C (fun i k => ∑ k' ∈ Finset.range C, w2m k k' * d i k') := by
  unfold reverseH2
  dsimp only
  rw [Room.resizeLike hH hle, if_neg (by simp)]
  have hr0 := hM.growLike hM1
  have hr := hr0.fill 0
  have hg := G2.fill hr0
  generalize (growLike M1a M1).fill 0 = M1a at *
  let T : ℕ → ℕ → Set (Bool × List ℕ) := fun i k => {(false, [i, 0, k])} ∪ {(true, [i, k])}
  have hp : ∀ E, Lc E (reverseH2K C N types wH1 wM1 H2a E) (ex N fun i => ex C fun k => T i k)
      (fun c x => x + if c.1 then d2 (fun i k => ∑ k' ∈ Finset.range C, w2m k k' * d i k') c.2
        else d3 (fun i _ k => ∑ k' ∈ Finset.range C, w2h (typ i) k k' * d i k') c.2) := by
    intro E
    refine Lc.parFor2 (fun i hi k hk => Lc.forAdd
      (δ := fun k' c => if c.1 then d2 (fun i k => w2m k k' * d i k') c.2 else d3 (fun i _ k => w2h (typ i) k k' * d i k') c.2)
      (fun k' hk' => Lc.seqDisj (Lc.opt (a := w2h (typ i) k k' * d i k') ?_ (Lc.plus (fun x => rfl)))
        (Lc.opt (a := w2m k k' * d i k') ?_ (Lc.plus (fun x => rfl))) (by simp)) ?_) ?_
    · rw [ht i hi, hd i hi k' hk']
      simp only [Option.bind_eq_bind, Option.bind_some]
      rw [hw _ (hlt i hi) k hk k' hk']
      rfl
    · rw [hd i hi k' hk', hw' k hk k' hk']
      rfl
    · rintro c (rfl | rfl) x <;> rfl
    · rintro i hi k hk i' hi' k' hk' c (rfl | rfl) (h | h) <;>
        simp only [Set.mem_singleton_iff, Prod.mk.injEq, List.cons.injEq, and_true, true_and, reduceCtorEq, false_and] at h
      · exact h
      · exact h
  obtain ⟨v', w', k1, ⟨k2, k3⟩, ⟨k4, k5⟩, ⟨k6, k7⟩, k8, k9⟩ := launch2_any V.L (v := H1a) (w := M1a) (hp _)
    (fun c hc => by
      obtain ⟨i, hi, k, hk, h | h⟩ := hc
      · simp only [Set.mem_singleton_iff, Prod.mk.injEq, true_and] at h
        subst h
        exact ⟨_, hH' i (hi.trans_le hN) 0 hL k hk⟩
      · simp at h)
    (fun c hc => by
      obtain ⟨i, hi, k, hk, h | h⟩ := hc
      · simp at h
      · simp only [Set.mem_singleton_iff, Prod.mk.injEq, true_and] at h
        subst h
        exact ⟨_, hg i hi k hk⟩)
  refine ⟨v', w', k1, hH.of_ext k2 (k4 hH.1), ?_, fun i hi lm hlm k hk => ?_, hr.of_ext k3 (k5 hr.1), fun i hi k hk => ?_⟩
  · unfold View.extent at hle ⊢; rw [k2]; exact hle
  · by_cases h0 : i < N ∧ lm = 0
    · obtain ⟨e0, rfl⟩ := h0
      rw [k6 _ _ ⟨i, e0, k, hk, Or.inl rfl⟩ (hH' i hi 0 hL k hk)]
      dsimp only
      rw [if_pos (show i < N ∧ 0 = 0 from ⟨e0, rfl⟩)]
      rfl
    · refine (k8 _ ?_).trans ((hH' i hi lm hlm k hk).trans ?_)
      swap
      · dsimp only
        rw [if_neg h0, add_zero]
      rintro ⟨i', hi', k', hk', h | h⟩
      · simp only [Set.mem_singleton_iff, Prod.mk.injEq, List.cons.injEq, and_true, true_and] at h
        exact h0 ⟨h.1 ▸ hi', h.2.1⟩
      · simp at h
  · rw [k7 _ _ ⟨i, hi, k, hk, Or.inr rfl⟩ (hg i hi k hk)]
    show some (0 + _) = _
    rw [zero_add]
    rfl

end Verif.Kokkos
