import Verif.Base.Kernel
import Mathlib.Algebra.BigOperators.Group.Finset.Basic

/-!
# Kernels that treat every cell independently

`Lc E p D q`: the kernel `p` touches only the cells `D`, without data races, and replaces the content `x` of each cell `c` by
`q c x`, whatever the contents are.
-/

namespace Verif.Par

open Prog

variable {ι K α : Type} [DecidableEq ι] [AddCommMonoid K] {E : ι → List ℕ}

/-- See the header. -/
def Lc (E : ι → List ℕ) (p : Prog ι K) (D : Set (ι × List ℕ)) (q : ι × List ℕ → K → K) : Prop :=
  ∀ f, ∃ v, Ok E p D f v (fun c => q c (f c))

/-- The cells of the threads below `n`. -/
def ex (n : ℕ) (T : ℕ → Set (ι × List ℕ)) : Set (ι × List ℕ) := {c | ∃ i < n, c ∈ T i}

/-- Programs that only compute the values `v`. -/
def Ret (E : ι → List ℕ) (p : Prog ι K) (v : List K) : Prop := ∀ f, Ok E p ∅ f v f

variable {D D' : Set (ι × List ℕ)} {q q' q1 q2 : ι × List ℕ → K → K}

omit [DecidableEq ι] [AddCommMonoid K] in
theorem mem_ex {n : ℕ} {T : ℕ → Set (ι × List ℕ)} {c : ι × List ℕ} : c ∈ ex n T ↔ ∃ i < n, c ∈ T i := Iff.rfl

theorem Ret.ret (v : List K) : Ret E (.ret v : Prog ι K) v := fun _ => Ok.ret (fun _ _ => rfl)

theorem Ret.opt {o : Option α} {a : α} {k : α → Prog ι K} {v : List K} (ho : o = some a) (hk : Ret E (k a) v) :
    Ret E (Prog.opt o k) v := fun f => Ok.opt ho (hk f)

theorem Ret.par {n : ℕ} {t : ℕ → Prog ι K} {k : List (List K) → Prog ι K} {V : ℕ → List K} {W : List (List K) → List K}
    (ht : ∀ i < n, Ret E (t i) (V i)) (hk : ∀ vs, Ret E (k vs) (W vs)) : Ret E (.par n t k) (W (tab n V)) :=
  fun f => Ok.reduce (fun i hi => ht i hi f) (fun vs => (hk vs f).1) (hk _ f).2

theorem Lc.congr {p : Prog ι K} (h : Lc E p D q) (hq : ∀ c ∈ D, ∀ x, q' c x = q c x) : Lc E p D q' := fun f => by
  obtain ⟨v, hv⟩ := h f
  exact ⟨v, hv.congr (fun _ _ => rfl) (fun c hc => hq c hc _)⟩

theorem Lc.frame {p : Prog ι K} (h : Lc E p D q) (hD : D ⊆ D') (hq : ∀ c ∈ D, ∀ x, q' c x = q c x)
    (hr : ∀ c ∈ D', c ∉ D → ∀ x, q' c x = x) : Lc E p D' q' := fun f => by
  obtain ⟨v, hv⟩ := h f
  exact ⟨v, hv.frame hD (fun _ _ => rfl) (fun c hc => hq c hc _) (fun c hc h => hr c hc h _)⟩

theorem Lc.ret {v : List K} (hq : ∀ c ∈ D, ∀ x, q c x = x) : Lc E (.ret v : Prog ι K) D q :=
  fun _ => ⟨v, Ok.ret (fun c hc => hq c hc _)⟩

theorem Lc.opt {o : Option α} {a : α} {k : α → Prog ι K} (ho : o = some a) (hk : Lc E (k a) D q) : Lc E (Prog.opt o k) D q := by
  subst ho; exact hk

theorem Lc.seq {p p' : Prog ι K} (h1 : Lc E p D q1) (h2 : Lc E p' D q2) (hq : ∀ c ∈ D, ∀ x, q c x = q2 c (q1 c x)) :
    Lc E (p.seq p') D q := fun f => by
  obtain ⟨v, hv⟩ := h1 f
  obtain ⟨w, hw⟩ := h2 (fun c => q1 c (f c))
  exact ⟨w, (hv.seq hw).congr (fun _ _ => rfl) (fun c hc => hq c hc _)⟩

/-- One after the other on different cells. -/
theorem Lc.seqDisj {p p' : Prog ι K} (h1 : Lc E p D q) (h2 : Lc E p' D' q) (hd : ∀ c ∈ D, c ∉ D') : Lc E (p.seq p') (D ∪ D') q := by
  classical
  refine Lc.seq (q1 := fun c x => if c ∈ D then q c x else x) (q2 := fun c x => if c ∈ D then x else q c x)
    (h1.frame Set.subset_union_left (fun c hc x => if_pos hc) (fun c _ hc x => if_neg hc))
    (h2.frame Set.subset_union_right (fun c hc x => if_neg (fun h => hd c h hc)) (fun c hc hn x => ?_)) (fun c hc x => ?_)
  · rcases hc with hc | hc
    · exact if_pos hc
    · exact absurd hc hn
  · split <;> rfl

theorem Lc.upd {b : ι} {is : List ℕ} {h : K → K} (hq : ∀ x, q (b, is) x = h x) : Lc E (Prog.upd E b is h) {(b, is)} q :=
  fun f => ⟨[], Ok.upd1 (hq (f (b, is)))⟩

theorem Lc.plus {b : ι} {is : List ℕ} {v : K} (hq : ∀ x, q (b, is) x = x + v) : Lc E (Prog.plus E b is v) {(b, is)} q := Lc.upd hq

theorem Lc.put {b : ι} {is : List ℕ} {v : K} (hq : ∀ x, q (b, is) x = v) : Lc E (Prog.put E b is v) {(b, is)} q :=
  fun f => ⟨[], Ok.put1 (hq (f (b, is)))⟩

/-- Threads on their own cells. -/
theorem Lc.parFor {n : ℕ} {t : ℕ → Prog ι K} {T : ℕ → Set (ι × List ℕ)} (ht : ∀ i < n, Lc E (t i) (T i) q)
    (hd : ∀ i < n, ∀ j < n, ∀ c, c ∈ T i → c ∈ T j → i = j) : Lc E (Prog.parFor n t) (ex n T) q := fun f =>
  ⟨[], Ok.parFor T (fun _ => Iff.rfl)
    (fun i hi j hj hne => Set.disjoint_left.mpr (fun c h1 h2 => hne (hd i hi j hj c h1 h2))) (fun i hi => ht i hi f)⟩

theorem Lc.parFor2 {n m : ℕ} {t : ℕ → ℕ → Prog ι K} {T : ℕ → ℕ → Set (ι × List ℕ)} (ht : ∀ i < n, ∀ j < m, Lc E (t i j) (T i j) q)
    (hd : ∀ i < n, ∀ j < m, ∀ i' < n, ∀ j' < m, ∀ c, c ∈ T i j → c ∈ T i' j' → i = i' ∧ j = j') :
    Lc E (Prog.parFor2 n m t) (ex n (fun i => ex m (T i))) q := fun f =>
  ⟨[], Ok.parFor2 T (fun _ => Iff.rfl) hd (fun i hi j hj => ht i hi j hj f)⟩

/-- Sequential loop whose rounds work on different cells. -/
theorem Lc.forDisj {n : ℕ} {t : ℕ → Prog ι K} {T : ℕ → Set (ι × List ℕ)} (ht : ∀ i < n, Lc E (t i) (T i) q)
    (hd : ∀ i < n, ∀ j < n, ∀ c, c ∈ T i → c ∈ T j → i = j) : Lc E (Prog.forP n t) (ex n T) q := by
  induction n with
  | zero => exact Lc.ret (fun c hc => by obtain ⟨i, hi, _⟩ := hc; omega)
  | succ n ih =>
    have h1 := ih (fun i hi => ht i (by omega)) (fun i hi j hj => hd i (by omega) j (by omega))
    have h2 := Lc.seqDisj h1 (ht n (by omega)) (fun c ⟨i, hi, hc⟩ hn => by
      have := hd i (by omega) n (by omega) c hc hn; omega)
    refine h2.frame ?_ (fun _ _ _ => rfl) ?_
    · rintro c (⟨i, hi, hc⟩ | hc)
      · exact ⟨i, by omega, hc⟩
      · exact ⟨n, by omega, hc⟩
    · rintro c ⟨i, hi, hc⟩ hn
      exfalso
      apply hn
      by_cases e : i = n
      · subst e; exact Or.inr hc
      · exact Or.inl ⟨i, by omega, hc⟩

/-- Accumulation in a sequential loop. -/
theorem Lc.forAdd {n : ℕ} {t : ℕ → Prog ι K} {δ : ℕ → ι × List ℕ → K} (ht : ∀ j < n, Lc E (t j) D (fun c x => x + δ j c))
    (hq : ∀ c ∈ D, ∀ x, q c x = x + ∑ j ∈ Finset.range n, δ j c) : Lc E (Prog.forP n t) D q := by
  have key : Lc E (Prog.forP n t) D (fun c x => x + ∑ j ∈ Finset.range n, δ j c) := by
    clear hq
    induction n with
    | zero => exact Lc.ret (fun c _ x => by simp)
    | succ n ih =>
      refine Lc.seq (ih (fun j hj => ht j (by omega))) (ht n (by omega)) (fun c _ x => ?_)
      rw [Finset.sum_range_succ, add_assoc]
  exact key.congr hq

/-- Reduction followed by something that uses the result. -/
theorem Lc.reduce {n : ℕ} {t : ℕ → Prog ι K} {k : List (List K) → Prog ι K} {V : ℕ → List K} {Q : List (List K) → ι × List ℕ → K → K}
    (ht : ∀ i < n, Ret E (t i) (V i)) (hk : ∀ vs, Lc E (k vs) D (Q vs)) (hq : ∀ c ∈ D, ∀ x, q c x = Q (tab n V) c x) :
    Lc E (.par n t k) D q := by
  refine Lc.congr (q := Q (tab n V)) (fun f => ?_) hq
  obtain ⟨v, hv⟩ := hk (tab n V) f
  exact ⟨v, Ok.reduce (fun i hi => ht i hi f) (fun vs => ((hk vs) f).choose_spec.1) hv.2⟩

/-- Reduction whose threads also update their own cells. -/
theorem Lc.reduceWith {n : ℕ} {t : ℕ → Prog ι K} {k : List (List K) → Prog ι K} {V : ℕ → List K} {T : ℕ → Set (ι × List ℕ)}
    {Q : List (List K) → ι × List ℕ → K → K} (ht : ∀ i < n, ∀ f, Ok E (t i) (T i) f (V i) (fun c => q c (f c)))
    (hd : ∀ i < n, ∀ j < n, ∀ c, c ∈ T i → c ∈ T j → i = j) (hk : ∀ vs, Lc E (k vs) D (Q vs)) (hn : ∀ i < n, ∀ c ∈ T i, c ∉ D)
    (hq : ∀ c ∈ D, ∀ x, q c x = Q (tab n V) c x) : Lc E (.par n t k) (ex n T ∪ D) q := by
  classical
  intro f
  obtain ⟨v, hv⟩ := hk (tab n V) (fun c => if c ∈ D then f c else q c (f c))
  have hc : ∀ vs, Confined (k vs) (cells E (ex n T ∪ D)) ∅ ∅ := fun vs =>
    ((hk vs) f).choose_spec.1.mono (cells_mono Set.subset_union_right) le_rfl le_rfl
  refine ⟨v, Ok.par (g := fun c => if c ∈ D then f c else q c (f c)) T (fun i hi c hc => Or.inl ⟨i, hi, hc⟩)
    (fun i hi j hj hne => Set.disjoint_left.mpr (fun c h1 h2 => hne (hd i hi j hj c h1 h2)))
    (fun i hi => (ht i hi f).congr (fun _ _ => rfl) (fun c hc => if_neg (hn i hi c hc))) ?_ hc
    (hv.2.frame Set.subset_union_right (fun _ _ => rfl) (fun c hc => ?_) (fun c hc hnD => ?_))⟩
  · rintro c (⟨i, hi, hc⟩ | hc) hno
    · exact absurd hc (hno i hi)
    · exact if_pos hc
  · rw [if_pos hc, hq c hc]
  · rw [if_neg hnD]

theorem Ok.get {b : ι} {is : List ℕ} {k : K → Prog ι K} {f g : ι × List ℕ → K} {v : List K} (hc : (b, is) ∈ D)
    (hkc : ∀ x, Confined (k x) (cells E D) ∅ ∅) (hk : Sp E (k (f (b, is))) D f v g) : Ok E (Prog.get E b is k) D f v g :=
  ⟨Confined.get (fun _ hp => Or.inl (mem_cells hc hp)) hkc, Sp.rd hc hk⟩

/-- Reduction over the threads' own cells followed by something that uses the result. -/
theorem Ok.reduceRd {n : ℕ} {t : ℕ → Prog ι K} {k : List (List K) → Prog ι K} {V : ℕ → List K} {T : ℕ → Set (ι × List ℕ)}
    {Q : List (List K) → ι × List ℕ → K → K} {f g : ι × List ℕ → K} (ht : ∀ i < n, Ok E (t i) (T i) f (V i) f)
    (hT : ∀ i < n, T i ⊆ D) (hd : ∀ i < n, ∀ j < n, ∀ c, c ∈ T i → c ∈ T j → i = j) (hk : ∀ vs, Lc E (k vs) D (Q vs))
    (hg : ∀ c ∈ D, g c = Q (tab n V) c (f c)) : ∃ v, Ok E (.par n t k) D f v g := by
  obtain ⟨v, hv⟩ := hk (tab n V) f
  exact ⟨v, Ok.par T hT (fun i hi j hj hne => Set.disjoint_left.mpr (fun c h1 h2 => hne (hd i hi j hj c h1 h2))) ht
    (fun _ _ _ => rfl) (fun vs => ((hk vs) f).choose_spec.1) (hv.2.congr (fun _ _ => rfl) hg)⟩

/-! ## Launches -/

theorem launch_lc (L : Launcher K) {p : Prog ι K} {vs : ι → View K} (f : ι × List ℕ → K)
    (hp : Lc (fun b => (vs b).ext) p D q) (hD : ∀ c ∈ D, (vs c.1).get c.2 = some (f c)) :
    ∃ v vs', L.launch p vs = some (v, vs') ∧ (∀ b, (vs' b).ext = (vs b).ext) ∧ (∀ b, (vs b).Ok → (vs' b).Ok) ∧
      (∀ c ∈ D, (vs' c.1).get c.2 = some (q c (f c))) ∧ ∀ c, c ∉ D → (vs' c.1).get c.2 = (vs c.1).get c.2 := by
  obtain ⟨v, hv⟩ := hp f
  exact ⟨v, launch_ok L hv hD⟩

theorem launch1_lc (L : Launcher K) {p : Prog Unit K} {v : View K} {D : Set (Unit × List ℕ)} {q : Unit × List ℕ → K → K}
    (f : List ℕ → K) (hp : Lc (fun _ => v.ext) p D q) (hD : ∀ c, ((), c) ∈ D → v.get c = some (f c)) :
    ∃ v', L.launch1 p v = some v' ∧ v'.ext = v.ext ∧ (v.Ok → v'.Ok) ∧
      (∀ c, ((), c) ∈ D → v'.get c = some (q ((), c) (f c))) ∧ ∀ c, ((), c) ∉ D → v'.get c = v.get c := by
  obtain ⟨w, hw⟩ := hp (fun c => f c.2)
  exact launch1_ok L (D := {c | ((), c) ∈ D}) (g := fun c => q ((), c) (f c)) hw (fun c hc => hD c hc)

theorem launch2_lc (L : Launcher K) {p : Prog Bool K} {v w : View K} {D : Set (Bool × List ℕ)} {q : Bool × List ℕ → K → K}
    (f : Bool × List ℕ → K) (hp : Lc (fun b => if b then w.ext else v.ext) p D q)
    (hv : ∀ c, (false, c) ∈ D → v.get c = some (f (false, c))) (hw : ∀ c, (true, c) ∈ D → w.get c = some (f (true, c))) :
    ∃ v' w', L.launch2 p v w = some (v', w') ∧ (v'.ext = v.ext ∧ w'.ext = w.ext) ∧ ((v.Ok → v'.Ok) ∧ (w.Ok → w'.Ok)) ∧
      ((∀ c, (false, c) ∈ D → v'.get c = some (q (false, c) (f (false, c)))) ∧
        (∀ c, (true, c) ∈ D → w'.get c = some (q (true, c) (f (true, c))))) ∧
      (∀ c, (false, c) ∉ D → v'.get c = v.get c) ∧ ∀ c, (true, c) ∉ D → w'.get c = w.get c := by
  obtain ⟨x, hx⟩ := hp f
  exact launch2_ok L hx hv hw

/-! ## Shared reads and atomic additions -/

/-- `p` turns the private cells `T` from `f` to `g`, reads the shared cells `R` (contents `f`), adds `δ` atomically to the shared
cells `A` (whatever they contain) and returns `v`. -/
def Jd (E : ι → List ℕ) (p : Prog ι K) (T R A : Set (ι × List ℕ)) (f : ι × List ℕ → K) (v : List K) (g δ : ι × List ℕ → K) : Prop :=
  Confined p (cells E T) (cells E R) (cells E A) ∧
  ∀ (s : ι × List ℕ → K) (m : Bufs ι K), (∀ c ∈ T, at? E m c = some (f c)) → (∀ c ∈ R, at? E m c = some (f c)) →
    (∀ c ∈ A, at? E m c = some (s c)) → ∃ m', run p m = some (v, m') ∧ (∀ c ∈ T, at? E m' c = some (g c)) ∧
      (∀ c ∈ A, at? E m' c = some (s c + δ c)) ∧ ∀ c, c ∉ T → c ∉ A → at? E m' c = at? E m c

section jd
variable {T R A T' R' A' : Set (ι × List ℕ)} {f g h δ δ1 δ2 : ι × List ℕ → K} {v w : List K}

theorem Jd.of_ok {p : Prog ι K} (hp : Ok E p T f v g) (hd : ∀ c ∈ T, c ∉ A) (h0 : ∀ c ∈ A, δ c = 0) : Jd E p T R A f v g δ :=
  ⟨hp.1.mono le_rfl (Set.empty_subset _) (Set.empty_subset _), fun s m h1 _ h3 => by
    obtain ⟨m', k1, k2, k3⟩ := hp.2 m h1
    exact ⟨m', k1, k2, fun c hc => by rw [k3 c (fun h => hd c h hc), h3 c hc, h0 c hc, add_zero], fun c h _ => k3 c h⟩⟩

theorem Jd.ret (hg : ∀ c ∈ T, g c = f c) (h0 : ∀ c ∈ A, δ c = 0) : Jd E (.ret v : Prog ι K) T R A f v g δ :=
  ⟨trivial, fun s m h1 _ h3 => ⟨m, rfl, fun c hc => by rw [h1 c hc, hg c hc], fun c hc => by rw [h3 c hc, h0 c hc, add_zero],
    fun _ _ _ => rfl⟩⟩

theorem Jd.opt {o : Option α} {a : α} {k : α → Prog ι K} (ho : o = some a) (hk : Jd E (k a) T R A f v g δ) :
    Jd E (Prog.opt o k) T R A f v g δ := by
  subst ho; exact hk

theorem Jd.bind {p : Prog ι K} {k : List K → Prog ι K} (hp : Jd E p T R A f v g δ1) (hk : Jd E (k v) T R A g w h δ2)
    (hkc : ∀ v, Confined (k v) (cells E T) (cells E R) (cells E A)) (hRT : ∀ c ∈ R, c ∉ T) (hRA : ∀ c ∈ R, c ∉ A)
    (hfg : ∀ c ∈ R, g c = f c) (hδ : ∀ c ∈ A, δ c = δ1 c + δ2 c) : Jd E (p.bind k) T R A f w h δ := by
  refine ⟨hp.1.bind hkc, fun s m h1 h2 h3 => ?_⟩
  obtain ⟨m1, k1, k2, k3, k4⟩ := hp.2 s m h1 h2 h3
  obtain ⟨m2, j1, j2, j3, j4⟩ := hk.2 (fun c => s c + δ1 c) m1 k2
    (fun c hc => by rw [k4 c (hRT c hc) (hRA c hc), h2 c hc, hfg c hc]) k3
  refine ⟨m2, ?_, j2, fun c hc => ?_, fun c hT hA => by rw [j4 c hT hA, k4 c hT hA]⟩
  · rw [run_bind, k1, Option.bind_some, j1]
  · rw [j3 c hc, hδ c hc, add_assoc]

theorem Jd.seq {p p' : Prog ι K} (hp : Jd E p T R A f v g δ1) (hk : Jd E p' T R A g w h δ2) (hRT : ∀ c ∈ R, c ∉ T)
    (hRA : ∀ c ∈ R, c ∉ A) (hfg : ∀ c ∈ R, g c = f c) (hδ : ∀ c ∈ A, δ c = δ1 c + δ2 c) : Jd E (p.seq p') T R A f w h δ :=
  Jd.bind hp hk (fun _ => hk.1) hRT hRA hfg hδ

theorem Jd.congr {p : Prog ι K} {f' g' δ' : ι × List ℕ → K} (hp : Jd E p T R A f v g δ) (hf : ∀ c ∈ T, f' c = f c)
    (hf' : ∀ c ∈ R, f' c = f c) (hg : ∀ c ∈ T, g' c = g c) (hδ : ∀ c ∈ A, δ' c = δ c) : Jd E p T R A f' v g' δ' :=
  ⟨hp.1, fun s m h1 h2 h3 => by
    obtain ⟨m', k1, k2, k3, k4⟩ := hp.2 s m (fun c hc => by rw [h1 c hc, hf c hc]) (fun c hc => by rw [h2 c hc, hf' c hc]) h3
    exact ⟨m', k1, fun c hc => by rw [k2 c hc, hg c hc], fun c hc => by rw [k3 c hc, hδ c hc], k4⟩⟩

/-- More cells. -/
theorem Jd.frame {p : Prog ι K} {g' δ' : ι × List ℕ → K} (hp : Jd E p T R A f v g δ) (hT : T ⊆ T') (hR : R ⊆ R') (hA : A ⊆ A')
    (hd : ∀ c ∈ T', c ∉ A') (hg : ∀ c ∈ T, g' c = g c) (hgr : ∀ c ∈ T', c ∉ T → g' c = f c) (hδ : ∀ c ∈ A, δ' c = δ c)
    (hδr : ∀ c ∈ A', c ∉ A → δ' c = 0) : Jd E p T' R' A' f v g' δ' := by
  refine ⟨hp.1.mono (cells_mono hT) (cells_mono hR) (cells_mono hA), fun s m h1 h2 h3 => ?_⟩
  obtain ⟨m', k1, k2, k3, k4⟩ := hp.2 s m (fun c hc => h1 c (hT hc)) (fun c hc => h2 c (hR hc)) (fun c hc => h3 c (hA hc))
  refine ⟨m', k1, fun c hc => ?_, fun c hc => ?_, fun c hcT hcA => k4 c (fun h => hcT (hT h)) (fun h => hcA (hA h))⟩
  · by_cases hcT : c ∈ T
    · rw [k2 c hcT, hg c hcT]
    · rw [k4 c hcT (fun h => hd c hc (hA h)), h1 c hc, hgr c hc hcT]
  · by_cases hcA : c ∈ A
    · rw [k3 c hcA, hδ c hcA]
    · rw [k4 c (fun h => hd c (hT h) hc) hcA, h3 c hc, hδr c hc hcA, add_zero]

theorem Jd.atomic {b : ι} {is : List ℕ} {x : K} (hc : (b, is) ∈ A) (hx : δ (b, is) = x)
    (hr : ∀ c ∈ A, c ≠ (b, is) → δ c = 0) (hg : ∀ c ∈ T, g c = f c) (hd : ∀ c ∈ T, c ∉ A) :
    Jd E (Prog.atomic E b is x) T R A f [] g δ := by
  refine ⟨Confined.atomic (fun _ hp => Or.inr (mem_cells hc hp)), fun s m h1 h2 h3 => ?_⟩
  have := Sp.atomic (E := E) (D := A) (f := s) (g := fun c => s c + δ c) (x := x) hc (by rw [hx])
    (fun c hcA hne => by rw [hr c hcA hne, add_zero])
  obtain ⟨m', k1, k2, k3⟩ := this m h3
  exact ⟨m', k1, fun c hcT => by rw [k3 c (hd c hcT), h1 c hcT, hg c hcT], k2, fun c _ hcA => k3 c hcA⟩

theorem Jd.get {b : ι} {is : List ℕ} {k : K → Prog ι K} (hc : (b, is) ∈ T ∨ (b, is) ∈ R)
    (hkc : ∀ x, Confined (k x) (cells E T) (cells E R) (cells E A)) (hk : Jd E (k (f (b, is))) T R A f v g δ) :
    Jd E (Prog.get E b is k) T R A f v g δ := by
  refine ⟨Confined.get (fun p hp => hc.imp (fun h => mem_cells h hp) (fun h => mem_cells h hp)) hkc, fun s m h1 h2 h3 => ?_⟩
  have hx : at? E m (b, is) = some (f (b, is)) := by
    rcases hc with hc | hc
    · exact h1 _ hc
    · exact h2 _ hc
  unfold at? at hx
  obtain ⟨p, hp, hx⟩ := Option.bind_eq_some_iff.mp hx
  dsimp only at hp hx
  obtain ⟨m', k1, k2⟩ := hk.2 s m h1 h2 h3
  refine ⟨m', ?_, k2⟩
  unfold Prog.get Prog.opt
  rw [hp]
  dsimp only [run]
  rw [hx, Option.bind_some, k1]

/-- Threads with private cells `T i`, common shared cells. -/
theorem Jd.par {n : ℕ} {t : ℕ → Prog ι K} {k : List (List K) → Prog ι K} {V : ℕ → List K} {T : ℕ → Set (ι × List ℕ)}
    {δ' : ℕ → ι × List ℕ → K} (ht : ∀ i < n, Jd E (t i) (T i) R A f (V i) g (δ' i))
    (hd : ∀ i < n, ∀ j < n, ∀ c, c ∈ T i → c ∈ T j → i = j) (hTR : ∀ i < n, ∀ c ∈ T i, c ∉ R) (hTA : ∀ i < n, ∀ c ∈ T i, c ∉ A)
    (hRA : ∀ c ∈ R, c ∉ A) (hfg : ∀ c ∈ R, g c = f c)
    (hkc : ∀ vs, Confined (k vs) (cells E (ex n T)) (cells E R) (cells E A)) (hk : Jd E (k (tab n V)) (ex n T) R A g w h δ2)
    (hδ : ∀ c ∈ A, δ c = ∑ i ∈ Finset.range n, δ' i c + δ2 c) : Jd E (.par n t k) (ex n T) R A f w h δ := by
  have hdT : ∀ i < n, ∀ j < n, i ≠ j → Disjoint (cells E (T i)) (cells E (T j)) := fun i hi j hj hne =>
    cells_disjoint (Set.disjoint_left.mpr (fun c h1 h2 => hne (hd i hi j hj c h1 h2)))
  refine ⟨⟨⟨fun i => cells E (T i), cells E R, cells E A, fun i hi => cells_mono (fun c hc => ⟨i, hi, hc⟩), Set.subset_union_right,
    Set.subset_union_right, hdT, fun i hi => cells_disjoint (Set.disjoint_left.mpr (hTR i hi)),
    fun i hi => cells_disjoint (Set.disjoint_left.mpr (hTA i hi)), cells_disjoint (Set.disjoint_left.mpr hRA),
    fun i hi => (ht i hi).1⟩, hkc⟩, fun s m h1 h2 h3 => ?_⟩
  have key : ∀ n' ≤ n, ∃ m', loopV n' (fun i m => run (t i) m) m = some (tab n' V, m') ∧
      (∀ i < n', ∀ c ∈ T i, at? E m' c = some (g c)) ∧ (∀ i < n, n' ≤ i → ∀ c ∈ T i, at? E m' c = some (f c)) ∧
      (∀ c ∈ A, at? E m' c = some (s c + ∑ i ∈ Finset.range n', δ' i c)) ∧ ∀ c, c ∉ ex n T → c ∉ A → at? E m' c = at? E m c := by
    intro n' hn'
    induction n' with
    | zero =>
      exact ⟨m, rfl, fun i hi => by omega, fun i hi _ c hc => h1 c ⟨i, hi, hc⟩, fun c hc => by rw [h3 c hc]; simp, fun _ _ _ => rfl⟩
    | succ n' ih =>
      obtain ⟨m1, e1, e2, e3, e4, e5⟩ := ih (by omega)
      obtain ⟨m2, k1, k2, k3, k4⟩ := (ht n' (by omega)).2 (fun c => s c + ∑ i ∈ Finset.range n', δ' i c) m1
        (e3 n' (by omega) le_rfl)
        (fun c hc => by
          rw [e5 c (fun ⟨i, hi, hci⟩ => hTR i hi c hci hc) (hRA c hc), h2 c hc]) e4
      refine ⟨m2, ?_, ?_, ?_, ?_, ?_⟩
      · rw [loopV_succ, e1, Option.bind_some, k1, Option.map_some]
        simp [tab, List.range_succ]
      · intro i hi c hc
        by_cases e : i = n'
        · subst e; exact k2 c hc
        · rw [k4 c (fun h => e (hd i (by omega) n' (by omega) c hc h)) (hTA i (by omega) c hc)]
          exact e2 i (by omega) c hc
      · intro i hi hle c hc
        rw [k4 c (fun h => by have := hd i hi n' (by omega) c hc h; omega) (hTA i hi c hc)]
        exact e3 i hi (by omega) c hc
      · intro c hc
        rw [k3 c hc, Finset.sum_range_succ, add_assoc]
      · intro c hcT hcA
        rw [k4 c (fun h => hcT ⟨n', by omega, h⟩) hcA, e5 c hcT hcA]
  obtain ⟨m1, e1, e2, e3, e4, e5⟩ := key n le_rfl
  obtain ⟨m2, j1, j2, j3, j4⟩ := hk.2 (fun c => s c + ∑ i ∈ Finset.range n, δ' i c) m1
    (fun c ⟨i, hi, hc⟩ => e2 i hi c hc)
    (fun c hc => by rw [e5 c (fun ⟨i, hi, hci⟩ => hTR i hi c hci hc) (hRA c hc), h2 c hc, hfg c hc]) e4
  refine ⟨m2, ?_, j2, fun c hc => ?_, fun c hT hA => by rw [j4 c hT hA, e5 c hT hA]⟩
  · dsimp only [run]
    rw [e1, Option.bind_some, j1]
  · rw [j3 c hc, hδ c hc, add_assoc]

theorem Jd.forP {n : ℕ} {t : ℕ → Prog ι K} (F : ℕ → ι × List ℕ → K) {δ' : ℕ → ι × List ℕ → K}
    (ht : ∀ j < n, ∃ v, Jd E (t j) T R A (F j) v (F (j + 1)) (δ' j)) (hRT : ∀ c ∈ R, c ∉ T) (hRA : ∀ c ∈ R, c ∉ A)
    (hF : ∀ j, ∀ c ∈ R, F j c = F 0 c) (hδ : ∀ c ∈ A, δ c = ∑ j ∈ Finset.range n, δ' j c) :
    ∃ v, Jd E (Prog.forP n t) T R A (F 0) v (F n) δ := by
  have key : ∃ v, Jd E (Prog.forP n t) T R A (F 0) v (F n) (fun c => ∑ j ∈ Finset.range n, δ' j c) := by
    clear hδ
    induction n with
    | zero => exact ⟨[], Jd.ret (fun _ _ => rfl) (fun _ _ => by simp)⟩
    | succ n ih =>
      obtain ⟨v, h1⟩ := ih (fun j hj => ht j (by omega))
      obtain ⟨w, h2⟩ := ht n (by omega)
      exact ⟨w, Jd.seq h1 h2 hRT hRA (hF n) (fun c _ => Finset.sum_range_succ _ _)⟩
  obtain ⟨v, hv⟩ := key
  exact ⟨v, hv.congr (fun _ _ => rfl) (fun _ _ => rfl) (fun _ _ => rfl) hδ⟩

omit [DecidableEq ι] [AddCommMonoid K] in
theorem Confined.absorb {p : Prog ι K} {S R A : Set (ι × ℕ)} (hp : Confined p S R A) : Confined p (S ∪ R ∪ A) ∅ ∅ := by
  induction p with
  | ret v => trivial
  | ub => trivial
  | rd b p k ih =>
    refine ⟨Or.inl ?_, fun x => ih x (hp.2 x)⟩
    rcases hp.1 with h | h
    · exact Or.inl (Or.inl h)
    · exact Or.inl (Or.inr h)
  | wr b p v k ih => exact ⟨Or.inl (Or.inl hp.1), ih hp.2⟩
  | «at» b p v k ih =>
    refine ⟨Or.inl ?_, ih hp.2⟩
    rcases hp.1 with h | h
    · exact Or.inl (Or.inl h)
    · exact Or.inr h
  | par n f k _ ih =>
    obtain ⟨⟨T, R1, A1, h1, h2, h3, h4, h5, h6, h7, h8⟩, h9⟩ := hp
    refine ⟨⟨T, R1, A1, fun i hi a ha => Or.inl (Or.inl (h1 i hi ha)), fun a ha => Or.inl ?_, fun a ha => Or.inl ?_,
      h4, h5, h6, h7, h8⟩, fun vs => ih vs (h9 vs)⟩
    · rcases h2 ha with h | h
      · exact Or.inl (Or.inl h)
      · exact Or.inl (Or.inr h)
    · rcases h3 ha with h | h
      · exact Or.inl (Or.inl h)
      · exact Or.inr h

/-- Seen from outside all cells are private. -/
theorem Jd.ok {p : Prog ι K} (hp : Jd E p T R A f v g δ) (hTR : ∀ c ∈ R, c ∉ T) (hTA : ∀ c ∈ A, c ∉ T) (hRA : ∀ c ∈ R, c ∉ A)
    (hgT : ∀ c ∈ T, h c = g c) (hgR : ∀ c ∈ R, h c = f c) (hgA : ∀ c ∈ A, h c = f c + δ c) : Ok E p (T ∪ R ∪ A) f v h := by
  refine ⟨hp.1.absorb.mono ?_ le_rfl le_rfl, fun m hm => ?_⟩
  · refine Set.union_subset (Set.union_subset (cells_mono ?_) (cells_mono ?_)) (cells_mono ?_)
    · exact fun c hc => Or.inl (Or.inl hc)
    · exact fun c hc => Or.inl (Or.inr hc)
    · exact fun c hc => Or.inr hc
  · obtain ⟨m', k1, k2, k3, k4⟩ := hp.2 f m (fun c hc => hm c (Or.inl (Or.inl hc))) (fun c hc => hm c (Or.inl (Or.inr hc)))
      (fun c hc => hm c (Or.inr hc))
    refine ⟨m', k1, ?_, fun c hc => k4 c (fun h => hc (Or.inl (Or.inl h))) (fun h => hc (Or.inr h))⟩
    rintro c ((hc | hc) | hc)
    · rw [k2 c hc, hgT c hc]
    · rw [k4 c (hTR c hc) (hRA c hc), hm c (Or.inl (Or.inr hc)), hgR c hc]
    · rw [k3 c hc, hgA c hc]

end jd

end Verif.Par
