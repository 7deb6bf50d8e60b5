import Verif.Base.Par
import Verif.Base.View

/-!
# Kernel combinators and their proof rules

Kernels access views by multi-dimensional indices; `E b` are the extents of view `b`.  `Ok E p D f v g`: `p` touches only the
cells `D`, without data races, and turns their contents `f` into `g` while returning the values `v`.
-/

namespace Verif.Par

variable {ι K α : Type}

namespace Prog

/-- Sequential composition. -/
def bind : Prog ι K → (List K → Prog ι K) → Prog ι K
  | .ret v, q => q v
  | .ub, _ => .ub
  | .rd b p k, q => .rd b p (fun x => bind (k x) q)
  | .wr b p v k, q => .wr b p v (bind k q)
  | .at b p v k, q => .at b p v (bind k q)
  | .par n f k, q => .par n f (fun vs => bind (k vs) q)

/-- Checked lookup in data that is not modified by the kernel. -/
def opt (o : Option α) (k : α → Prog ι K) : Prog ι K :=
  match o with
  | some a => k a
  | none => .ub

/-- `p; q`. -/
def seq (p q : Prog ι K) : Prog ι K := bind p (fun _ => q)

/-- Sequential loop `for (j = 0; j < n; ++j) body(j)`. -/
def forP : ℕ → (ℕ → Prog ι K) → Prog ι K
  | 0, _ => .ret []
  | n + 1, body => seq (forP n body) (body n)

/-- `parallel_for(n, body)`. -/
def parFor (n : ℕ) (body : ℕ → Prog ι K) : Prog ι K := .par n body (fun _ => .ret [])

/-- `parallel_for` over `n * m` indices split into `(q / m, q % m)`; also two-dimensional ranges. -/
def parFor2 (n m : ℕ) (body : ℕ → ℕ → Prog ι K) : Prog ι K := .par (n * m) (fun q => body (q / m) (q % m)) (fun _ => .ret [])

/-- Component `c` of a sum reduction. -/
def red [AddCommMonoid K] (c : ℕ) (vs : List (List K)) : K := (vs.map (fun v => v.getD c 0)).sum

/-- `b(is) = v`. -/
def put (E : ι → List ℕ) (b : ι) (is : List ℕ) (v : K) : Prog ι K := opt (flat (E b) is 0) (fun p => .wr b p v (.ret []))

/-- `b(is) = h(b(is))`: a read and a write. -/
def upd (E : ι → List ℕ) (b : ι) (is : List ℕ) (h : K → K) : Prog ι K :=
  opt (flat (E b) is 0) (fun p => .rd b p (fun x => .wr b p (h x) (.ret [])))

/-- `b(is) += v` without atomicity. -/
def plus [Add K] (E : ι → List ℕ) (b : ι) (is : List ℕ) (v : K) : Prog ι K := upd E b is (fun x => x + v)

/-- `Kokkos::atomic_add(&b(is), v)`. -/
def atomic (E : ι → List ℕ) (b : ι) (is : List ℕ) (v : K) : Prog ι K := opt (flat (E b) is 0) (fun p => .at b p v (.ret []))

/-- Read `b(is)`. -/
def get (E : ι → List ℕ) (b : ι) (is : List ℕ) (k : K → Prog ι K) : Prog ι K := opt (flat (E b) is 0) (fun p => .rd b p k)

end Prog

open Prog

section confined
variable {S S' R R' A A' : Set (ι × ℕ)}

theorem Confined.mono {p : Prog ι K} (h : Confined p S R A) (hS : S ⊆ S') (hR : R ⊆ R') (hA : A ⊆ A') : Confined p S' R' A' := by
  induction p with
  | ret v => trivial
  | ub => trivial
  | rd b p k ih => exact ⟨h.1.imp (fun x => hS x) (fun x => hR x), fun x => ih x (h.2 x)⟩
  | wr b p v k ih => exact ⟨hS h.1, ih h.2⟩
  | «at» b p v k ih => exact ⟨h.1.imp (fun x => hS x) (fun x => hA x), ih h.2⟩
  | par n f k _ ih =>
    obtain ⟨⟨T, R1, A1, h1, h2, h3, h4, h5, h6, h7, h8⟩, h9⟩ := h
    exact ⟨⟨T, R1, A1, fun i hi => (h1 i hi).trans hS, h2.trans (Set.union_subset_union hS hR),
      h3.trans (Set.union_subset_union hS hA), h4, h5, h6, h7, h8⟩, fun vs => ih vs (h9 vs)⟩

theorem Confined.bind {p : Prog ι K} {q : List K → Prog ι K} (h : Confined p S R A) (hq : ∀ v, Confined (q v) S R A) :
    Confined (p.bind q) S R A := by
  induction p with
  | ret v => exact hq v
  | ub => trivial
  | rd b p k ih => exact ⟨h.1, fun x => ih x (h.2 x)⟩
  | wr b p v k ih => exact ⟨h.1, ih h.2⟩
  | «at» b p v k ih => exact ⟨h.1, ih h.2⟩
  | par n f k _ ih => exact ⟨h.1, fun vs => ih vs (h.2 vs)⟩

theorem Confined.seq {p q : Prog ι K} (h : Confined p S R A) (hq : Confined q S R A) : Confined (p.seq q) S R A :=
  Confined.bind h (fun _ => hq)

theorem Confined.opt {o : Option α} {k : α → Prog ι K} (h : ∀ a, o = some a → Confined (k a) S R A) :
    Confined (Prog.opt o k) S R A := by
  cases o with
  | none => trivial
  | some a => exact h a rfl

theorem Confined.ite {c : Prop} [Decidable c] {p q : Prog ι K} (hp : c → Confined p S R A) (hq : ¬ c → Confined q S R A) :
    Confined (if c then p else q) S R A := by
  split
  · exact hp ‹_›
  · exact hq ‹_›

theorem Confined.forP {n : ℕ} {body : ℕ → Prog ι K} (h : ∀ j < n, Confined (body j) S R A) :
    Confined (Prog.forP n body) S R A := by
  induction n with
  | zero => trivial
  | succ n ih => exact Confined.seq (ih (fun j hj => h j (by omega))) (h n (by omega))

/-- Threads on pairwise disjoint private cells. -/
theorem Confined.par {n : ℕ} {f : ℕ → Prog ι K} {k : List (List K) → Prog ι K} (T : ℕ → Set (ι × ℕ)) (hT : ∀ i < n, T i ⊆ S)
    (hd : ∀ i < n, ∀ j < n, i ≠ j → Disjoint (T i) (T j)) (hf : ∀ i < n, Confined (f i) (T i) ∅ ∅)
    (hk : ∀ vs, Confined (k vs) S R A) : Confined (.par n f k) S R A :=
  ⟨⟨T, ∅, ∅, hT, by simp, by simp, hd, by simp, by simp, by simp, hf⟩, hk⟩

/-- Threads on pairwise disjoint private cells that also add atomically to shared cells. -/
theorem Confined.parAtomic {n : ℕ} {f : ℕ → Prog ι K} {k : List (List K) → Prog ι K} (T : ℕ → Set (ι × ℕ)) (A1 : Set (ι × ℕ))
    (hT : ∀ i < n, T i ⊆ S) (hA : A1 ⊆ S ∪ A) (hd : ∀ i < n, ∀ j < n, i ≠ j → Disjoint (T i) (T j))
    (hdA : ∀ i < n, Disjoint (T i) A1) (hf : ∀ i < n, Confined (f i) (T i) ∅ A1) (hk : ∀ vs, Confined (k vs) S R A) :
    Confined (.par n f k) S R A :=
  ⟨⟨T, ∅, A1, hT, by simp, hA, hd, by simp, hdA, by simp, hf⟩, hk⟩

theorem Confined.raceFree {p : Prog ι K} (h : Confined p S ∅ ∅) : RaceFree p := h.mono (Set.subset_univ _) le_rfl le_rfl

end confined

/-! ## Cells -/

section cells
variable (E : ι → List ℕ)

/-- Storage positions of the cells `D`. -/
def cells (D : Set (ι × List ℕ)) : Set (ι × ℕ) := {a | ∃ c ∈ D, c.1 = a.1 ∧ flat (E c.1) c.2 0 = some a.2}

variable {E}

theorem cells_mono {D D' : Set (ι × List ℕ)} (h : D ⊆ D') : cells E D ⊆ cells E D' := fun _ ⟨c, hc, h2⟩ => ⟨c, h hc, h2⟩

theorem cells_disjoint {D D' : Set (ι × List ℕ)} (h : Disjoint D D') : Disjoint (cells E D) (cells E D') := by
  rw [Set.disjoint_left] at h ⊢
  rintro ⟨b, p⟩ ⟨⟨b1, i1⟩, h1, h2, h3⟩ ⟨⟨b2, i2⟩, k1, k2, k3⟩
  dsimp only at h2 h3 k2 k3
  subst h2 k2
  obtain ⟨e, -⟩ := flat_index_inj h3 k3
  subst e
  exact h h1 k1

theorem mem_cells {D : Set (ι × List ℕ)} {b : ι} {is : List ℕ} {p : ℕ} (h : (b, is) ∈ D) (hp : flat (E b) is 0 = some p) :
    (b, p) ∈ cells E D := ⟨(b, is), h, rfl, hp⟩

/-- Content of a cell. -/
def at? (E : ι → List ℕ) (m : Bufs ι K) (c : ι × List ℕ) : Option K := (flat (E c.1) c.2 0).bind (fun p => (m c.1)[p]?)

variable {S R A : Set (ι × ℕ)}

theorem Confined.put {b : ι} {is : List ℕ} {v : K} (h : ∀ p, flat (E b) is 0 = some p → (b, p) ∈ S) :
    Confined (Prog.put E b is v) S R A := Confined.opt (fun p hp => ⟨h p hp, trivial⟩)

theorem Confined.upd {b : ι} {is : List ℕ} {g : K → K} (h : ∀ p, flat (E b) is 0 = some p → (b, p) ∈ S) :
    Confined (Prog.upd E b is g) S R A := Confined.opt (fun p hp => ⟨Or.inl (h p hp), fun _ => ⟨h p hp, trivial⟩⟩)

theorem Confined.atomic {b : ι} {is : List ℕ} {v : K} (h : ∀ p, flat (E b) is 0 = some p → (b, p) ∈ S ∨ (b, p) ∈ A) :
    Confined (Prog.atomic E b is v) S R A := Confined.opt (fun p hp => ⟨h p hp, trivial⟩)

theorem Confined.get {b : ι} {is : List ℕ} {k : K → Prog ι K} (h : ∀ p, flat (E b) is 0 = some p → (b, p) ∈ S ∨ (b, p) ∈ R)
    (hk : ∀ x, Confined (k x) S R A) : Confined (Prog.get E b is k) S R A := Confined.opt (fun p hp => ⟨h p hp, hk⟩)

end cells

/-! ## Execution in index order -/

section runs
variable [DecidableEq ι] [AddCommMonoid K] {E : ι → List ℕ}

theorem run_bind (p : Prog ι K) (q : List K → Prog ι K) (m : Bufs ι K) :
    run (p.bind q) m = (run p m).bind (fun r => run (q r.1) r.2) := by
  induction p generalizing m with
  | ret v => rfl
  | ub => rfl
  | rd b p k ih => simp only [Prog.bind, run, ih, Option.bind_assoc]
  | wr b p v k ih => simp only [Prog.bind, run, ih, Option.bind_assoc]
  | «at» b p v k ih => simp only [Prog.bind, run, ih, Option.bind_assoc]
  | par n f k _ ih => simp only [Prog.bind, run, ih, Option.bind_assoc]

theorem at?_modAt {m m' : Bufs ι K} {b : ι} {is : List ℕ} {p : ℕ} (hp : flat (E b) is 0 = some p) {h : K → K}
    (hm : modAt b p h m = some m') (c : ι × List ℕ) :
    at? E m' c = if c = (b, is) then (at? E m (b, is)).map h else at? E m c := by
  obtain ⟨b', js⟩ := c
  unfold at?
  dsimp only
  by_cases hc : (b', js) = (b, is)
  · rw [if_pos hc]
    cases hc
    rw [hp, Option.bind_some, Option.bind_some, get_modAt hm]
    simp
  · rw [if_neg hc]
    cases hq : flat (E b') js 0 with
    | none => rfl
    | some q =>
      rw [Option.bind_some, Option.bind_some, get_modAt hm]
      rw [if_neg]
      rintro ⟨rfl, rfl⟩
      obtain ⟨e, -⟩ := flat_index_inj hq hp
      exact hc (by rw [e])

/-- Running `p` turns the contents `f` of the cells `D` into `g`, leaves all other cells alone and returns `v`. -/
def Sp (E : ι → List ℕ) (p : Prog ι K) (D : Set (ι × List ℕ)) (f : ι × List ℕ → K) (v : List K) (g : ι × List ℕ → K) : Prop :=
  ∀ m : Bufs ι K, (∀ c ∈ D, at? E m c = some (f c)) → ∃ m', run p m = some (v, m') ∧
    (∀ c ∈ D, at? E m' c = some (g c)) ∧ ∀ c, c ∉ D → at? E m' c = at? E m c

/-- See the header. -/
def Ok (E : ι → List ℕ) (p : Prog ι K) (D : Set (ι × List ℕ)) (f : ι × List ℕ → K) (v : List K) (g : ι × List ℕ → K) : Prop :=
  Confined p (cells E D) ∅ ∅ ∧ Sp E p D f v g

variable {D : Set (ι × List ℕ)} {f g h : ι × List ℕ → K} {v w : List K}

theorem Sp.ret (hg : ∀ c ∈ D, g c = f c) : Sp E (.ret v : Prog ι K) D f v g :=
  fun m hm => ⟨m, rfl, fun c hc => by rw [hm c hc, hg c hc], fun _ _ => rfl⟩

theorem Sp.opt {o : Option α} {a : α} {k : α → Prog ι K} (ho : o = some a) (hk : Sp E (k a) D f v g) :
    Sp E (Prog.opt o k) D f v g := by
  subst ho; exact hk

theorem Sp.bind {p : Prog ι K} {q : List K → Prog ι K} (hp : Sp E p D f v g) (hq : Sp E (q v) D g w h) :
    Sp E (p.bind q) D f w h := by
  intro m hm
  obtain ⟨m1, h1, h2, h3⟩ := hp m hm
  obtain ⟨m2, k1, k2, k3⟩ := hq m1 h2
  refine ⟨m2, ?_, k2, fun c hc => by rw [k3 c hc, h3 c hc]⟩
  rw [run_bind, h1, Option.bind_some, k1]

theorem Sp.seq {p q : Prog ι K} (hp : Sp E p D f v g) (hq : Sp E q D g w h) : Sp E (p.seq q) D f w h := Sp.bind hp hq

/-- Larger set of cells. -/
theorem Sp.frame {p : Prog ι K} {D' : Set (ι × List ℕ)} {f' g' : ι × List ℕ → K} (hp : Sp E p D f v g) (hD : D ⊆ D')
    (hf : ∀ c ∈ D, f' c = f c) (hg : ∀ c ∈ D, g' c = g c) (hr : ∀ c ∈ D', c ∉ D → g' c = f' c) : Sp E p D' f' v g' := by
  intro m hm
  obtain ⟨m1, h1, h2, h3⟩ := hp m (fun c hc => by rw [hm c (hD hc), hf c hc])
  refine ⟨m1, h1, fun c hc => ?_, fun c hc => h3 c (fun h => hc (hD h))⟩
  by_cases hcD : c ∈ D
  · rw [h2 c hcD, hg c hcD]
  · rw [h3 c hcD, hm c hc, hr c hc hcD]

theorem Sp.congr {p : Prog ι K} {f' g' : ι × List ℕ → K} (hp : Sp E p D f v g)
    (hf : ∀ c ∈ D, f' c = f c) (hg : ∀ c ∈ D, g' c = g c) : Sp E p D f' v g' :=
  hp.frame le_rfl hf hg (fun c h h' => absurd h h')

theorem Sp.rd {b : ι} {is : List ℕ} {k : K → Prog ι K} (hc : (b, is) ∈ D) (hk : Sp E (k (f (b, is))) D f v g) :
    Sp E (Prog.get E b is k) D f v g := by
  intro m hm
  have := hm _ hc
  unfold at? at this
  obtain ⟨p, hp, hx⟩ := Option.bind_eq_some_iff.mp this
  dsimp only at hp hx
  obtain ⟨m1, h1, h2⟩ := hk m hm
  refine ⟨m1, ?_, h2⟩
  unfold Prog.get Prog.opt
  rw [hp]
  dsimp only [run]
  rw [hx, Option.bind_some, h1]

theorem Sp.upd {b : ι} {is : List ℕ} {q : K → K} (hc : (b, is) ∈ D) (hg : g (b, is) = q (f (b, is)))
    (hr : ∀ c ∈ D, c ≠ (b, is) → g c = f c) : Sp E (Prog.upd E b is q) D f [] g := by
  intro m hm
  have hx := hm _ hc
  have hx0 := hx
  unfold at? at hx
  obtain ⟨p, hp, hx⟩ := Option.bind_eq_some_iff.mp hx
  dsimp only at hp hx
  obtain ⟨m', hm'⟩ : ∃ m', modAt b p (fun _ => q (f (b, is))) m = some m' := by
    unfold modAt; rw [hx]; exact ⟨_, rfl⟩
  refine ⟨m', ?_, fun c hcD => ?_, fun c hcD => ?_⟩
  · unfold Prog.upd Prog.opt
    rw [hp]
    dsimp only [run]
    rw [hx, Option.bind_some]
    unfold putAt
    rw [hm', Option.bind_some]
  · rw [at?_modAt hp hm']
    by_cases hcc : c = (b, is)
    · rw [if_pos hcc, hx0, Option.map_some, hcc, hg]
    · rw [if_neg hcc, hm c hcD, hr c hcD hcc]
  · rw [at?_modAt hp hm', if_neg (by rintro rfl; exact hcD hc)]

theorem Sp.put {b : ι} {is : List ℕ} {x : K} (hc : (b, is) ∈ D) (hg : g (b, is) = x)
    (hr : ∀ c ∈ D, c ≠ (b, is) → g c = f c) : Sp E (Prog.put E b is x) D f [] g := by
  intro m hm
  have hx0 := hm _ hc
  have hx := hx0
  unfold at? at hx
  obtain ⟨p, hp, hx⟩ := Option.bind_eq_some_iff.mp hx
  dsimp only at hp hx
  obtain ⟨m', hm'⟩ : ∃ m', modAt b p (fun _ => x) m = some m' := by
    unfold modAt; rw [hx]; exact ⟨_, rfl⟩
  refine ⟨m', ?_, fun c hcD => ?_, fun c hcD => ?_⟩
  · unfold Prog.put Prog.opt
    rw [hp]
    dsimp only [run]
    unfold putAt
    rw [hm', Option.bind_some]
  · rw [at?_modAt hp hm']
    by_cases hcc : c = (b, is)
    · rw [if_pos hcc, hx0, Option.map_some, hcc, hg]
    · rw [if_neg hcc, hm c hcD, hr c hcD hcc]
  · rw [at?_modAt hp hm', if_neg (by rintro rfl; exact hcD hc)]

theorem Sp.atomic {b : ι} {is : List ℕ} {x : K} (hc : (b, is) ∈ D) (hg : g (b, is) = f (b, is) + x)
    (hr : ∀ c ∈ D, c ≠ (b, is) → g c = f c) : Sp E (Prog.atomic E b is x) D f [] g := by
  intro m hm
  have hx0 := hm _ hc
  have hx := hx0
  unfold at? at hx
  obtain ⟨p, hp, hx⟩ := Option.bind_eq_some_iff.mp hx
  dsimp only at hp hx
  obtain ⟨m', hm'⟩ : ∃ m', addAt b p x m = some m' := by
    unfold addAt modAt; rw [hx]; exact ⟨_, rfl⟩
  refine ⟨m', ?_, fun c hcD => ?_, fun c hcD => ?_⟩
  · unfold Prog.atomic Prog.opt
    rw [hp]
    dsimp only [run]
    rw [hm', Option.bind_some]
  · rw [at?_modAt hp hm']
    by_cases hcc : c = (b, is)
    · rw [if_pos hcc, hx0, Option.map_some, hcc, hg]
    · rw [if_neg hcc, hm c hcD, hr c hcD hcc]
  · rw [at?_modAt hp hm', if_neg (by rintro rfl; exact hcD hc)]

/-- Sequential loop. -/
theorem Sp.forP {n : ℕ} {body : ℕ → Prog ι K} (F : ℕ → ι × List ℕ → K) (hb : ∀ j < n, ∃ v, Sp E (body j) D (F j) v (F (j + 1))) :
    ∃ v, Sp E (Prog.forP n body) D (F 0) v (F n) := by
  induction n with
  | zero => exact ⟨[], Sp.ret (fun _ _ => rfl)⟩
  | succ n ih =>
    obtain ⟨v, h1⟩ := ih (fun j hj => hb j (by omega))
    obtain ⟨w, h2⟩ := hb n (by omega)
    exact ⟨w, Sp.seq h1 h2⟩

/-- Threads in index order. -/
theorem Sp.parChain {n : ℕ} {t : ℕ → Prog ι K} {k : List (List K) → Prog ι K} {V : ℕ → List K} (F : ℕ → ι × List ℕ → K)
    (ht : ∀ i < n, Sp E (t i) D (F i) (V i) (F (i + 1))) (hk : Sp E (k (tab n V)) D (F n) w h) :
    Sp E (.par n t k) D (F 0) w h := by
  have key : ∀ n' ≤ n, ∀ m : Bufs ι K, (∀ c ∈ D, at? E m c = some (F 0 c)) →
      ∃ m', loopV n' (fun i m => run (t i) m) m = some (tab n' V, m') ∧ (∀ c ∈ D, at? E m' c = some (F n' c)) ∧
        ∀ c, c ∉ D → at? E m' c = at? E m c := by
    intro n' hn'
    induction n' with
    | zero => intro m hm; exact ⟨m, rfl, hm, fun _ _ => rfl⟩
    | succ n' ih =>
      intro m hm
      obtain ⟨m1, h1, h2, h3⟩ := ih (by omega) m hm
      obtain ⟨m2, k1, k2, k3⟩ := ht n' (by omega) m1 h2
      refine ⟨m2, ?_, k2, fun c hc => by rw [k3 c hc, h3 c hc]⟩
      rw [loopV_succ, h1, Option.bind_some, k1, Option.map_some]
      simp [tab, List.range_succ]
  intro m hm
  obtain ⟨m1, h1, h2, h3⟩ := key n le_rfl m hm
  obtain ⟨m2, k1, k2, k3⟩ := hk m1 h2
  refine ⟨m2, ?_, k2, fun c hc => by rw [k3 c hc, h3 c hc]⟩
  dsimp only [run]
  rw [h1, Option.bind_some, k1]

/-- Threads on pairwise disjoint cells. -/
theorem Sp.par {n : ℕ} {t : ℕ → Prog ι K} {k : List (List K) → Prog ι K} {V : ℕ → List K} (T : ℕ → Set (ι × List ℕ))
    (hT : ∀ i < n, T i ⊆ D) (hd : ∀ i < n, ∀ j < n, i ≠ j → Disjoint (T i) (T j))
    (ht : ∀ i < n, Sp E (t i) (T i) f (V i) g) (hr : ∀ c ∈ D, (∀ i < n, c ∉ T i) → g c = f c)
    (hk : Sp E (k (tab n V)) D g w h) : Sp E (.par n t k) D f w h := by
  classical
  have := Sp.parChain (E := E) (D := D) (t := t) (k := k) (V := V) (w := w) (h := h) (n := n)
    (fun i c => if ∃ j < i, c ∈ T j then g c else f c) (fun i hi => ?_) ?_
  · exact this.congr (fun c _ => by simp) (fun _ _ => rfl)
  · refine (ht i hi).frame (hT i hi) (fun c hc => ?_) (fun c hc => ?_) (fun c hc hcT => ?_)
    · rw [if_neg]
      rintro ⟨j, hj, hcj⟩
      exact Set.disjoint_left.mp (hd j (by omega) i hi (by omega)) hcj hc
    · rw [if_pos ⟨i, by omega, hc⟩]
    · have : (∃ j < i + 1, c ∈ T j) ↔ ∃ j < i, c ∈ T j := by
        constructor
        · rintro ⟨j, hj, hcj⟩
          rcases Nat.lt_succ_iff_lt_or_eq.mp hj with h | rfl
          · exact ⟨j, h, hcj⟩
          · exact absurd hcj hcT
        · rintro ⟨j, hj, hcj⟩; exact ⟨j, by omega, hcj⟩
      simp only [this]
  · refine hk.congr (fun c hc => ?_) (fun _ _ => rfl)
    split
    · rfl
    · rename_i hn
      exact (hr c hc (fun i hi hci => hn ⟨i, hi, hci⟩)).symm

/-! ## Combined rules -/

theorem Ok.ret (hg : ∀ c ∈ D, g c = f c) : Ok E (.ret v : Prog ι K) D f v g := ⟨trivial, Sp.ret hg⟩

theorem Ok.opt {o : Option α} {a : α} {k : α → Prog ι K} (ho : o = some a) (hk : Ok E (k a) D f v g) :
    Ok E (Prog.opt o k) D f v g := by
  subst ho; exact hk

theorem Ok.seq {p q : Prog ι K} (hp : Ok E p D f v g) (hq : Ok E q D g w h) : Ok E (p.seq q) D f w h :=
  ⟨hp.1.seq hq.1, hp.2.seq hq.2⟩

theorem Ok.frame {p : Prog ι K} {D' : Set (ι × List ℕ)} {f' g' : ι × List ℕ → K} (hp : Ok E p D f v g) (hD : D ⊆ D')
    (hf : ∀ c ∈ D, f' c = f c) (hg : ∀ c ∈ D, g' c = g c) (hr : ∀ c ∈ D', c ∉ D → g' c = f' c) : Ok E p D' f' v g' :=
  ⟨hp.1.mono (cells_mono hD) le_rfl le_rfl, hp.2.frame hD hf hg hr⟩

theorem Ok.congr {p : Prog ι K} {f' g' : ι × List ℕ → K} (hp : Ok E p D f v g)
    (hf : ∀ c ∈ D, f' c = f c) (hg : ∀ c ∈ D, g' c = g c) : Ok E p D f' v g' := ⟨hp.1, hp.2.congr hf hg⟩

theorem Ok.upd {b : ι} {is : List ℕ} {q : K → K} (hc : (b, is) ∈ D) (hg : g (b, is) = q (f (b, is)))
    (hr : ∀ c ∈ D, c ≠ (b, is) → g c = f c) : Ok E (Prog.upd E b is q) D f [] g :=
  ⟨Confined.upd (fun _ hp => mem_cells hc hp), Sp.upd hc hg hr⟩

theorem Ok.put {b : ι} {is : List ℕ} {x : K} (hc : (b, is) ∈ D) (hg : g (b, is) = x)
    (hr : ∀ c ∈ D, c ≠ (b, is) → g c = f c) : Ok E (Prog.put E b is x) D f [] g :=
  ⟨Confined.put (fun _ hp => mem_cells hc hp), Sp.put hc hg hr⟩

theorem Ok.plus {b : ι} {is : List ℕ} {x : K} (hc : (b, is) ∈ D) (hg : g (b, is) = f (b, is) + x)
    (hr : ∀ c ∈ D, c ≠ (b, is) → g c = f c) : Ok E (Prog.plus E b is x) D f [] g := Ok.upd hc hg hr

/-- Update of the only cell. -/
theorem Ok.upd1 {b : ι} {is : List ℕ} {q : K → K} (hg : g (b, is) = q (f (b, is))) :
    Ok E (Prog.upd E b is q) {(b, is)} f [] g := Ok.upd rfl hg (fun _ h h' => absurd h h')

theorem Ok.plus1 {b : ι} {is : List ℕ} {x : K} (hg : g (b, is) = f (b, is) + x) :
    Ok E (Prog.plus E b is x) {(b, is)} f [] g := Ok.upd1 hg

theorem Ok.put1 {b : ι} {is : List ℕ} {x : K} (hg : g (b, is) = x) :
    Ok E (Prog.put E b is x) {(b, is)} f [] g := Ok.put rfl hg (fun _ h h' => absurd h h')

theorem Ok.forP {n : ℕ} {body : ℕ → Prog ι K} (F : ℕ → ι × List ℕ → K) (hb : ∀ j < n, ∃ v, Ok E (body j) D (F j) v (F (j + 1))) :
    ∃ v, Ok E (Prog.forP n body) D (F 0) v (F n) := by
  obtain ⟨v, h⟩ := Sp.forP (E := E) (D := D) (body := body) (n := n) F (fun j hj => (hb j hj).imp (fun _ h => h.2))
  exact ⟨v, Confined.forP (fun j hj => (hb j hj).choose_spec.1), h⟩

/-- Threads on pairwise disjoint cells. -/
theorem Ok.par {n : ℕ} {t : ℕ → Prog ι K} {k : List (List K) → Prog ι K} {V : ℕ → List K} (T : ℕ → Set (ι × List ℕ))
    (hT : ∀ i < n, T i ⊆ D) (hd : ∀ i < n, ∀ j < n, i ≠ j → Disjoint (T i) (T j))
    (ht : ∀ i < n, Ok E (t i) (T i) f (V i) g) (hr : ∀ c ∈ D, (∀ i < n, c ∉ T i) → g c = f c)
    (hkc : ∀ vs, Confined (k vs) (cells E D) ∅ ∅) (hk : Sp E (k (tab n V)) D g w h) : Ok E (.par n t k) D f w h :=
  ⟨Confined.par (fun i => cells E (T i)) (fun i hi => cells_mono (hT i hi)) (fun i hi j hj hne => cells_disjoint (hd i hi j hj hne))
    (fun i hi => (ht i hi).1) hkc, Sp.par T hT hd (fun i hi => (ht i hi).2) hr hk⟩

/-- `parallel_for` over disjoint cells that make up `D`. -/
theorem Ok.parFor {n : ℕ} {t : ℕ → Prog ι K} (T : ℕ → Set (ι × List ℕ))
    (hD : ∀ c, c ∈ D ↔ ∃ i < n, c ∈ T i) (hd : ∀ i < n, ∀ j < n, i ≠ j → Disjoint (T i) (T j))
    (ht : ∀ i < n, ∃ v, Ok E (t i) (T i) f v g) : Ok E (Prog.parFor n t) D f [] g := by
  choose! V hV using ht
  exact Ok.par T (fun i hi c hc => (hD c).mpr ⟨i, hi, hc⟩) hd hV
    (fun c hc h => by obtain ⟨i, hi, h1⟩ := (hD c).mp hc; exact absurd h1 (h i hi)) (fun _ => trivial) (Sp.ret (fun _ _ => rfl))

theorem Ok.parFor2 {n m : ℕ} {t : ℕ → ℕ → Prog ι K} (T : ℕ → ℕ → Set (ι × List ℕ))
    (hD : ∀ c, c ∈ D ↔ ∃ i < n, ∃ j < m, c ∈ T i j)
    (hd : ∀ i < n, ∀ j < m, ∀ i' < n, ∀ j' < m, ∀ c, c ∈ T i j → c ∈ T i' j' → i = i' ∧ j = j')
    (ht : ∀ i < n, ∀ j < m, ∃ v, Ok E (t i j) (T i j) f v g) : Ok E (Prog.parFor2 n m t) D f [] g := by
  have hq : ∀ q < n * m, q / m < n ∧ q % m < m := by
    intro q hq
    have hm : 0 < m := Nat.pos_of_ne_zero (by rintro rfl; simp at hq)
    exact ⟨(Nat.div_lt_iff_lt_mul hm).mpr hq, Nat.mod_lt _ hm⟩
  refine Ok.parFor (fun q => T (q / m) (q % m)) (fun c => ?_) (fun q hq1 q' hq2 hne => ?_) (fun q hq1 => ?_)
  · rw [hD c]
    constructor
    · rintro ⟨i, hi, j, hj, hc⟩
      refine ⟨i * m + j, flat_lt hi hj, ?_⟩
      have e1 : (i * m + j) / m = i := by
        rw [mul_comm, Nat.mul_add_div (by omega), Nat.div_eq_of_lt hj, add_zero]
      have e2 : (i * m + j) % m = j := by
        rw [mul_comm, Nat.mul_add_mod, Nat.mod_eq_of_lt hj]
      rw [e1, e2]; exact hc
    · rintro ⟨q, hq1, hc⟩
      exact ⟨_, (hq q hq1).1, _, (hq q hq1).2, hc⟩
  · rw [Set.disjoint_left]
    intro c h1 h2
    obtain ⟨e1, e2⟩ := hd _ (hq q hq1).1 _ (hq q hq1).2 _ (hq q' hq2).1 _ (hq q' hq2).2 c h1 h2
    apply hne
    rw [← Nat.div_add_mod q m, ← Nat.div_add_mod q' m, e1, e2]
  · exact ht _ (hq q hq1).1 _ (hq q hq1).2

/-- Sum reduction without side effects. -/
theorem Ok.reduce {n : ℕ} {t : ℕ → Prog ι K} {k : List (List K) → Prog ι K} {V : ℕ → List K}
    (ht : ∀ i < n, Ok E (t i) ∅ f (V i) f) (hkc : ∀ vs, Confined (k vs) (cells E D) ∅ ∅) (hk : Sp E (k (tab n V)) D f w h) :
    Ok E (.par n t k) D f w h :=
  Ok.par (fun _ => ∅) (fun _ _ => Set.empty_subset _) (fun _ _ _ _ _ => Set.disjoint_empty _) ht (fun _ _ _ => rfl) hkc hk

theorem red_tab (n c : ℕ) (V : ℕ → List K) : red c (tab n V) = ∑ i ∈ Finset.range n, (V i).getD c 0 := by
  unfold red tab
  rw [List.map_map]
  induction n with
  | zero => rfl
  | succ n ih => rw [List.range_succ, List.map_append, List.sum_append, ih, Finset.sum_range_succ]; simp

end runs

/-! ## Launches -/

/-- A way of executing kernels. -/
structure Launcher (K : Type) [AddCommMonoid K] where
  go : ∀ {ι : Type} [DecidableEq ι], Prog ι K → Bufs ι K → Option (List K × Bufs ι K)
  /-- every launch ends in an outcome of some interleaving of its threads -/
  legal : ∀ {ι : Type} [DecidableEq ι] (p : Prog ι K) (m : Bufs ι K), Outcome p m (go p m)

/-- Threads in index order. -/
def Launcher.inOrder (K : Type) [AddCommMonoid K] : Launcher K := ⟨fun p m => run p m, fun p m => run_outcome p m⟩

section launch
variable [DecidableEq ι] [AddCommMonoid K]

/-- Run a kernel on views. -/
def Launcher.launch (L : Launcher K) (p : Prog ι K) (vs : ι → View K) : Option (List K × (ι → View K)) :=
  (L.go p (fun b => (vs b).data)).map (fun r => (r.1, fun b => ⟨(vs b).ext, r.2 b⟩))

/-- A race-free kernel has one outcome. -/
theorem launch_ok (L : Launcher K) {p : Prog ι K} {vs : ι → View K} {D : Set (ι × List ℕ)} {f g : ι × List ℕ → K} {v : List K}
    (hp : Ok (fun b => (vs b).ext) p D f v g) (hD : ∀ c ∈ D, (vs c.1).get c.2 = some (f c)) :
    ∃ vs', L.launch p vs = some (v, vs') ∧ (∀ b, (vs' b).ext = (vs b).ext) ∧ (∀ b, (vs b).Ok → (vs' b).Ok) ∧
      (∀ c ∈ D, (vs' c.1).get c.2 = some (g c)) ∧ ∀ c, c ∉ D → (vs' c.1).get c.2 = (vs c.1).get c.2 := by
  obtain ⟨m', h1, h2, h3⟩ := hp.2 (fun b => (vs b).data) hD
  have ho := outcome_unique hp.1.raceFree (L.legal p (fun b => (vs b).data))
  refine ⟨fun b => ⟨(vs b).ext, m' b⟩, ?_, fun _ => rfl, fun b hb => ?_, h2, h3⟩
  · unfold Launcher.launch
    rw [ho, h1]
    rfl
  · have := run_length p h1 b
    unfold View.Ok at hb ⊢
    rw [← hb]
    exact this

/-- Run a kernel that modifies one view. -/
def Launcher.launch1 (L : Launcher K) (p : Prog Unit K) (v : View K) : Option (View K) :=
  (L.launch p (fun _ => v)).map (fun r => r.2 ())

theorem launch1_ok (L : Launcher K) {p : Prog Unit K} {v : View K} {D : Set (List ℕ)} {f g : List ℕ → K} {w : List K}
    (hp : Ok (fun _ => v.ext) p {c | c.2 ∈ D} (fun c => f c.2) w (fun c => g c.2)) (hD : ∀ c ∈ D, v.get c = some (f c)) :
    ∃ v', L.launch1 p v = some v' ∧ v'.ext = v.ext ∧ (v.Ok → v'.Ok) ∧
      (∀ c ∈ D, v'.get c = some (g c)) ∧ ∀ c, c ∉ D → v'.get c = v.get c := by
  obtain ⟨vs', h1, h2, h3, h4, h5⟩ := launch_ok L (vs := fun _ => v) hp (fun c hc => hD c.2 hc)
  refine ⟨vs' (), ?_, h2 (), h3 (), fun c hc => h4 ((), c) hc, fun c hc => h5 ((), c) hc⟩
  unfold Launcher.launch1
  rw [h1]
  rfl

/-- Run a kernel that modifies two views (`false`, `true`). -/
def Launcher.launch2 (L : Launcher K) (p : Prog Bool K) (v w : View K) : Option (View K × View K) :=
  (L.launch p (fun b => if b then w else v)).map (fun r => (r.2 false, r.2 true))

theorem launch2_ok (L : Launcher K) {p : Prog Bool K} {v w : View K} {D : Set (Bool × List ℕ)} {f g : Bool × List ℕ → K} {x : List K}
    (hp : Ok (fun b => if b then w.ext else v.ext) p D f x g) (hv : ∀ c, (false, c) ∈ D → v.get c = some (f (false, c)))
    (hw : ∀ c, (true, c) ∈ D → w.get c = some (f (true, c))) :
    ∃ v' w', L.launch2 p v w = some (v', w') ∧ (v'.ext = v.ext ∧ w'.ext = w.ext) ∧ ((v.Ok → v'.Ok) ∧ (w.Ok → w'.Ok)) ∧
      ((∀ c, (false, c) ∈ D → v'.get c = some (g (false, c))) ∧ (∀ c, (true, c) ∈ D → w'.get c = some (g (true, c)))) ∧
      (∀ c, (false, c) ∉ D → v'.get c = v.get c) ∧ ∀ c, (true, c) ∉ D → w'.get c = w.get c := by
  have he : (fun b : Bool => (if b then w else v).ext) = fun b => if b then w.ext else v.ext := by
    funext b; cases b <;> rfl
  rw [← he] at hp
  obtain ⟨vs', h1, h2, h3, h4, h5⟩ := launch_ok L (vs := fun b : Bool => if b then w else v) hp (by
    rintro ⟨b, c⟩ hc
    cases b
    · exact hv c hc
    · exact hw c hc)
  refine ⟨vs' false, vs' true, ?_, ⟨h2 false, h2 true⟩, ⟨h3 false, h3 true⟩, ⟨fun c hc => h4 (false, c) hc, fun c hc => h4 (true, c) hc⟩,
    fun c hc => h5 (false, c) hc, fun c hc => h5 (true, c) hc⟩
  unfold Launcher.launch2
  rw [h1]
  rfl

end launch

end Verif.Par
