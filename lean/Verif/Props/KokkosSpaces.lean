import Verif.Model.Kokkos.Spaces
import Verif.Model.Kokkos.Load
import Verif.Lemmas.Kokkos.Tools

/-!
# Properties of the view conversions with separate memories (C124)
-/

namespace Verif.Props
open Verif.Kokkos Verif.Kokkos.Spaces

variable {K : Type}

/-! ## Host code on one allocation -/

/-- The memory in which allocation `b` holds `v`. -/
def put (m : Mem K) (b : ℕ) (sp : Space) (v : View K) : Mem K := m.set b ⟨sp, v⟩

theorem hmod_put {m : Mem K} {b : ℕ} {sp : Space} (hb : b < m.length) (hs : sp.onHost = true) (g : View K → Option (View K)) (v : View K) :
    hmod (put m b sp v) b g = (g v).map (put m b sp) := by
  unfold hmod put
  rw [List.getElem?_set_self hb]
  simp only [Option.bind_eq_bind, Option.bind_some, hs, if_true]
  cases g v with
  | none => rfl
  | some w => simp [List.set_set]

theorem loop_map {σ τ : Type} {n : ℕ} {B : ℕ → σ → Option σ} {C : ℕ → τ → Option τ} (φ : σ → τ)
    (h : ∀ i s, C i (φ s) = (B i s).map φ) (s : σ) : loop n C (φ s) = (loop n B s).map φ := by
  induction n with
  | zero => rfl
  | succ n ih =>
    rw [loop_succ, loop_succ, ih]
    cases loop n B s with
    | none => rfl
    | some t => exact h n t

/-- Host code that changes one allocation like `F`. -/
def Runs (fill : ℕ → Mem K → Option (Mem K)) (F : View K → Option (View K)) : Prop :=
  ∀ (m : Mem K) (b : ℕ) (sp : Space) (v : View K), b < m.length → sp.onHost = true → fill b (put m b sp v) = (F v).map (put m b sp)

theorem runs_set {is : List ℕ} {o : Option K} :
    Runs (fun h m => do let a ← o; hset m h is a) (fun v => do let a ← o; v.set is a) := by
  intro m b sp v hb hs
  cases o with
  | none => rfl
  | some a => exact hmod_put hb hs (fun v => v.set is a) v

theorem runs_loop {n : ℕ} {f : ℕ → ℕ → Mem K → Option (Mem K)} {F : ℕ → View K → Option (View K)} (h : ∀ i, Runs (fun b => f b i) (F i)) :
    Runs (fun b => loop n (f b)) (loop n F) := fun m b sp v hb hs => loop_map _ (fun i s => h i m b sp s hb hs) v

theorem runs_opt {α : Type} {o : Option α} {f : α → ℕ → Mem K → Option (Mem K)} {F : α → View K → Option (View K)}
    (h : ∀ a, Runs (f a) (F a)) : Runs (fun b m => do let a ← o; f a b m) (fun v => do let a ← o; F a v) := by
  intro m b sp v hb hs
  cases o with
  | none => rfl
  | some a => exact h a m b sp v hb hs

theorem runs_seq {f g : ℕ → Mem K → Option (Mem K)} {F G : View K → Option (View K)} (hf : Runs f F) (hg : Runs g G) :
    Runs (fun b m => do let m ← f b m; g b m) (fun v => do let v ← F v; G v) := by
  intro m b sp v hb hs
  show (f b (put m b sp v)).bind (g b) = ((F v).bind G).map (put m b sp)
  rw [hf m b sp v hb hs]
  cases F v with
  | none => rfl
  | some w => exact hg m b sp w hb hs

theorem runs_hmod {g : View K → Option (View K)} : Runs (fun b m => hmod m b g) g := fun _ _ _ v hb hs => hmod_put hb hs g v

/-! ## C124 -/

/-- C124, the pattern of all transfers to the device: allocation, mirror, host code, `deep_copy`.  In each memory space the new allocation
ends with what the host code makes of the initial contents (of zeros if the host cannot access the memory), and nothing else changes. -/
theorem C124_via_mirror [Zero K] (m : Mem K) (sp : Space) (v0 w : View K) (fill : ℕ → Mem K → Option (Mem K)) (F : View K → Option (View K))
    (hF : Runs fill F) (hw : F (if sp.onHost then v0 else View.new v0.ext 0) = some w) (he : w.ext = v0.ext) :
    ∃ m', viaMirror m sp v0 fill = some (m.length, m') ∧ m'[m.length]? = some ⟨sp, w⟩ ∧ ∀ i < m.length, m'[i]? = m[i]? := by
  cases hs : sp.onHost with
  | true =>
    rw [hs, if_pos rfl] at hw
    have h1 := hF (m ++ [⟨sp, v0⟩]) m.length sp v0 (by simp) hs
    have e0 : put (m ++ [⟨sp, v0⟩]) m.length sp v0 = m ++ [⟨sp, v0⟩] := by simp [put]
    have e1 : put (m ++ [⟨sp, v0⟩]) m.length sp w = m ++ [⟨sp, w⟩] := by simp [put]
    rw [e0, hw, Option.map_some, e1] at h1
    refine ⟨m ++ [⟨sp, w⟩], ?_, by simp, fun i hi => List.getElem?_append_left hi⟩
    simp [viaMirror, alloc, mirror, hs, h1, Spaces.deepCopy]
  | false =>
    rw [hs, if_neg (by simp)] at hw
    have h1 := hF (m ++ [⟨sp, v0⟩] ++ [⟨.host, View.new v0.ext 0⟩]) (m.length + 1) .host (View.new v0.ext 0) (by simp) rfl
    have e : ∀ u : View K, put (m ++ [⟨sp, v0⟩] ++ [⟨.host, View.new v0.ext 0⟩]) (m.length + 1) .host u = m ++ [⟨sp, v0⟩] ++ [⟨.host, u⟩] := by
      intro u; simp [put]
    rw [e, hw, Option.map_some, e] at h1
    refine ⟨m ++ [⟨sp, w⟩] ++ [⟨.host, w⟩], ?_, by simp, fun i hi => ?_⟩
    · have g1 : (m ++ [⟨sp, v0⟩] ++ [⟨.host, w⟩])[m.length]? = some ⟨sp, v0⟩ := by simp
      have g2 : (m ++ [⟨sp, v0⟩] ++ [⟨.host, w⟩])[m.length + 1]? = some ⟨.host, w⟩ := by simp
      have g3 : (m ++ [⟨sp, v0⟩] ++ [⟨.host, w⟩] : Mem K).set m.length ⟨sp, w⟩ = m ++ [⟨sp, w⟩] ++ [⟨.host, w⟩] := by simp
      have g4 : (m ++ [⟨sp, v0⟩])[m.length]? = some ⟨sp, v0⟩ := by simp
      have g5 : (m ++ [(⟨sp, v0⟩ : Buf K)]).length = m.length + 1 := by simp
      unfold viaMirror
      simp only [alloc, mirror, g4, hs, g5, Option.bind_eq_bind, Option.bind_some, Option.pure_def, Bool.false_eq_true, if_false, h1]
      simp only [Spaces.deepCopy, g1, g2, Option.bind_eq_bind, Option.bind_some, he, if_true, Option.pure_def]
      rw [g3]
    · rw [List.append_assoc, List.getElem?_append_left hi]

theorem ite_new [Zero K] (c : Bool) (E : List ℕ) : (if c then View.new E (0 : K) else View.new (View.new E (0 : K)).ext 0) = View.new E 0 := by
  cases c <;> rfl

/-- C124, `toKokkosView` for rank 1: in the new allocation the view of C55, and nothing else changed. -/
theorem C124_to_view1 [Zero K] (m : Mem K) (x : List K) :
    ∃ m' w, toKokkosView1 m x = some (m.length, m') ∧ m'[m.length]? = some ⟨.shared, w⟩ ∧ toView1 x = some w ∧
      ∀ i < m.length, m'[i]? = m[i]? := by
  obtain ⟨m', h1, h2, h3⟩ := C124_via_mirror m .shared (View.new [x.length] 0) _ _ _ (runs_loop (fun i => runs_set))
    ((congrArg _ (ite_new _ _)).trans (toView1_eq x)) rfl
  exact ⟨m', _, h1, h2, toView1_eq x, h3⟩

/-- C124, `toKokkosView` for rank 2, with one memory and with two. -/
theorem C124_to_view2 [Zero K] (sep : Bool) (m : Mem K) (x : List K) (N0 N1 : ℕ) (hx : N0 * N1 ≤ x.length) :
    ∃ m' w, toKokkosView2 sep m x N0 N1 = some (m.length, m') ∧ m'[m.length]? = some ⟨dflt sep, w⟩ ∧ toView2 x N0 N1 = some w ∧
      ∀ i < m.length, m'[i]? = m[i]? := by
  obtain ⟨m', h1, h2, h3⟩ := C124_via_mirror m (dflt sep) (View.new [N0, N1] 0) _ _ _ (runs_loop (fun i => runs_loop (fun j => runs_set)))
    ((congrArg _ (ite_new _ _)).trans (toView2_eq x N0 N1 hx)) rfl
  exact ⟨m', _, h1, h2, toView2_eq x N0 N1 hx, h3⟩

/-- C124, `toKokkosView` for rank 3. -/
theorem C124_to_view3 [Zero K] (sep : Bool) (m : Mem K) (x : List K) (N0 N1 N2 : ℕ) (hx : N0 * N1 * N2 ≤ x.length) :
    ∃ m' w, toKokkosView3 sep m x N0 N1 N2 = some (m.length, m') ∧ m'[m.length]? = some ⟨dflt sep, w⟩ ∧ toView3 x N0 N1 N2 = some w ∧
      ∀ i < m.length, m'[i]? = m[i]? := by
  obtain ⟨m', h1, h2, h3⟩ := C124_via_mirror m (dflt sep) (View.new [N0, N1, N2] 0) _ _ _
    (runs_loop (fun i => runs_loop (fun j => runs_loop (fun k => runs_set))))
    ((congrArg _ (ite_new _ _)).trans (toView3_eq x N0 N1 N2 hx)) rfl
  exact ⟨m', _, h1, h2, toView3_eq x N0 N1 N2 hx, h3⟩

theorem mirrorCopy_host {m : Mem K} {b : ℕ} {B : Buf K} (hB : m[b]? = some B) :
    ∃ h m', mirrorCopy .host m b = some (h, m') ∧ m'[h]? = some ⟨.host, B.view⟩ ∧ ∀ i < m.length, m'[i]? = m[i]? := by
  by_cases hs : B.space = .host
  · refine ⟨b, m, by simp [mirrorCopy, hB, hs], ?_, fun _ _ => rfl⟩
    rw [hB, ← hs]
  · exact ⟨m.length, m ++ [⟨.host, B.view⟩], by simp [mirrorCopy, hB, hs, alloc], by simp, fun i hi => List.getElem?_append_left hi⟩

theorem hget_host {m : Mem K} {h : ℕ} {v : View K} (hm : m[h]? = some ⟨.host, v⟩) (is : List ℕ) : hget m h is = v.get is := by
  simp [hget, hm, Space.onHost]

/-- C124, `view2vector`: for a view in any memory the result is that of C55. -/
theorem C124_to_vector [Zero K] (m : Mem K) (b : ℕ) (B : Buf K) (hB : m[b]? = some B) :
    view2vector1 m b = ofView1 B.view ∧ view2vector2 m b = ofView2 B.view ∧ view2vector3 m b = ofView3 B.view := by
  obtain ⟨h, m', h1, h2, -⟩ := mirrorCopy_host hB
  have e := hget_host h2
  refine ⟨?_, ?_, ?_⟩
  · simp only [view2vector1, h1, Option.bind_eq_bind, Option.bind_some, h2, e]; rfl
  · simp only [view2vector2, h1, Option.bind_eq_bind, Option.bind_some, h2, e]; rfl
  · simp only [view2vector3, h1, Option.bind_eq_bind, Option.bind_some, h2, e]; rfl

/-- C124, `set_kokkos_view`: in any memory the view ends as in C55, and no other allocation changes. -/
theorem C124_set_view [Zero K] (sep : Bool) (m : Mem K) (b : ℕ) (B : Buf K) (hB : m[b]? = some B) (x : List K) (ext : List ℕ)
    (hx : ext.prod ≤ x.length) :
    ∃ m' w, setKokkosView sep m b x ext = some m' ∧ m'[b]? = some ⟨B.space, w⟩ ∧ setView B.view x ext = some w ∧
      ∀ i < m.length, i ≠ b → m'[i]? = m[i]? := by
  have hb : b < m.length := (List.getElem?_eq_some_iff.mp hB).1
  -- the copy in the default memory
  obtain ⟨d, md, hd, hdd, hdo, hdb⟩ : ∃ d md, mirrorCopy (dflt sep) (m ++ [⟨.host, ⟨ext, x.take ext.prod⟩⟩]) m.length = some (d, md) ∧
      md[d]? = some ⟨dflt sep, ⟨ext, x.take ext.prod⟩⟩ ∧ (∀ i < m.length, md[i]? = m[i]?) ∧ m.length ≤ d := by
    cases sep with
    | false =>
      exact ⟨m.length, m ++ [⟨.host, ⟨ext, x.take ext.prod⟩⟩], by simp [mirrorCopy, dflt], by simp [dflt],
        fun i hi => List.getElem?_append_left hi, le_refl _⟩
    | true =>
      refine ⟨m.length + 1, m ++ [⟨.host, ⟨ext, x.take ext.prod⟩⟩] ++ [⟨.device, ⟨ext, x.take ext.prod⟩⟩], by simp [mirrorCopy, dflt, alloc],
        by simp [dflt], fun i hi => ?_, by omega⟩
      rw [List.append_assoc, List.getElem?_append_left hi]
  have hbd : md[b]? = some B := (hdo b hb).trans hB
  have hbl : b < md.length := (List.getElem?_eq_some_iff.mp hbd).1
  have hne : b ≠ d := by omega
  have he : (if B.view.ext = ext then B.view else View.new ext 0).ext = ext := by
    split
    · assumption
    · rfl
  refine ⟨md.set b ⟨B.space, ⟨ext, x.take ext.prod⟩⟩, ⟨ext, x.take ext.prod⟩, ?_, List.getElem?_set_self hbl, ?_, fun i hi hib => ?_⟩
  · unfold setKokkosView
    rw [if_pos hx]
    simp only [alloc, hd, Option.bind_eq_bind, Option.bind_some, hbd]
    by_cases hE : B.view.ext = ext
    · simp only [if_pos hE, Spaces.deepCopy, hbd, hdd, Option.bind_eq_bind, Option.bind_some, Option.pure_def]
    · simp only [if_neg hE, Spaces.deepCopy, List.getElem?_set_self hbl, List.getElem?_set_ne hne, hdd, Option.bind_eq_bind, Option.bind_some,
        Option.pure_def, View.new, if_true, List.set_set]
  · unfold setView
    rw [if_pos hx]
    simp only [he]
  · rw [List.getElem?_set_ne (fun h => hib h.symm), hdo i hi]

/-- C124, the tables of monomials: whatever an allocation without initialisation holds, the table on the device is that of the
one-memory model (unused entries -1). -/
theorem C124_pad_table (sep : Bool) (m : Mem ℤ) (n : ℕ) (rows : List (List ℕ)) (v0 w : View ℤ) (h0 : v0.Ok) (he0 : v0.ext = [n, 3])
    (hw : monomialsView n rows = some w) :
    ∃ m', padTable sep m n rows v0 = some (m.length, m') ∧ m'[m.length]? = some ⟨dflt sep, w⟩ ∧ ∀ i < m.length, m'[i]? = m[i]? := by
  have hfill : ∀ c : Bool, (if c then v0 else View.new v0.ext 0).fill (-1) = View.new [n, 3] (-1) := by
    intro c
    cases c with
    | true => simp only [if_true, View.fill, View.new]; rw [h0, he0]
    | false => simp [View.fill, View.new, he0]
  have hext : w.ext = [n, 3] := by
    refine loop_pres hw (fun v => v.ext = [n, 3]) rfl (fun i _ t t' ht hs => ?_)
    obtain ⟨r, -, hs⟩ := Option.bind_eq_some_iff.mp hs
    refine loop_pres hs (fun v => v.ext = [n, 3]) ht (fun j _ u u' hu hj => ?_)
    obtain ⟨a, -, hj⟩ := Option.bind_eq_some_iff.mp hj
    obtain ⟨p, -, hj⟩ := Option.bind_eq_some_iff.mp hj
    obtain ⟨q, -, rfl⟩ := Option.map_eq_some_iff.mp hj
    exact hu
  exact C124_via_mirror m (dflt sep) v0 w _ _
    (runs_seq (G := loop n (fun i v => do
        let r ← rows[i]?
        loop r.length (fun j v => do
          let a ← r[j]?
          v.set [i, j] (a : ℤ)) v))
      runs_hmod (runs_loop (fun i => runs_opt (fun r => runs_loop (fun j => runs_opt (fun a => runs_hmod))))))
    (by
      show (some (View.fill _ (-1))).bind _ = _
      rw [Option.bind_some, hfill]
      exact hw) (hext.trans he0.symm)

theorem writeFront_eq {l : List K} {v : View K} (h : l.length ≤ v.data.length) : writeFront l v = some ⟨v.ext, l ++ v.data.drop l.length⟩ :=
  if_pos h

theorem hmod_some {m : Mem K} {b : ℕ} {sp : Space} {v w : View K} {g : View K → Option (View K)} (hm : m[b]? = some ⟨sp, v⟩)
    (hs : sp.onHost = true) (hg : g v = some w) : hmod m b g = some (m.set b ⟨sp, w⟩) := by
  simp [hmod, hm, hs, hg]

theorem deepCopy_some {m : Mem K} {d s : ℕ} {D S : Buf K} (hd : m[d]? = some D) (hs : m[s]? = some S) (he : D.view.ext = S.view.ext) :
    Spaces.deepCopy m d s = some (m.set d ⟨D.space, S.view⟩) := by
  simp [Spaces.deepCopy, hd, hs, he]

theorem mirror_some [Zero K] {m : Mem K} {b : ℕ} {B : Buf K} (hm : m[b]? = some B) (hV : B.view.Ok) :
    ∃ h m' sp W, mirror m b = some (h, m') ∧ m'[h]? = some ⟨sp, W⟩ ∧ sp.onHost = true ∧ W.ext = B.view.ext ∧
      W.data.length = B.view.data.length ∧ (∀ i < m.length, m'[i]? = m[i]?) ∧ m.length ≤ m'.length ∧ (h = b ∨ m.length ≤ h) := by
  cases hs : B.space.onHost with
  | true =>
    exact ⟨b, m, B.space, B.view, by simp [mirror, hm, hs], hm, hs, rfl, rfl, fun _ _ => rfl, le_refl _, Or.inl rfl⟩
  | false =>
    exact ⟨m.length, m ++ [⟨.host, View.new B.view.ext 0⟩], .host, View.new B.view.ext 0, by simp [mirror, hm, hs, alloc], by simp, rfl, rfl,
      by rw [hV]; simp [View.new], fun i hi => List.getElem?_append_left hi, by simp, Or.inr (le_refl _)⟩

/-- C124, `compute_Y`: with one memory or two, sphericart reads the positions of `xyz_shuffled`, and `Y` and `Y_grad` begin with its
results; nothing else changes among the allocations there were. -/
theorem C124_harmonics [Zero K] (sep : Bool) (m : Mem K) (num xyz Y Yg : ℕ) (sph : List K → List K × List K) (X V G : View K)
    (hX : m[xyz]? = some ⟨dflt sep, X⟩) (hV : m[Y]? = some ⟨dflt sep, V⟩) (hG : m[Yg]? = some ⟨dflt sep, G⟩) (hne : Y ≠ Yg)
    (hVo : V.Ok) (hGo : G.Ok)
    (h1 : (sph (X.data.take (3 * num))).1.length ≤ V.data.length) (h2 : (sph (X.data.take (3 * num))).2.length ≤ G.data.length) :
    ∃ m' V' G', hostHarmonics m num xyz Y Yg sph = some m' ∧ m'[Y]? = some ⟨dflt sep, V'⟩ ∧ m'[Yg]? = some ⟨dflt sep, G'⟩ ∧
      V'.ext = V.ext ∧ G'.ext = G.ext ∧
      (∀ i < (sph (X.data.take (3 * num))).1.length, V'.data[i]? = (sph (X.data.take (3 * num))).1[i]?) ∧
      (∀ i < (sph (X.data.take (3 * num))).2.length, G'.data[i]? = (sph (X.data.take (3 * num))).2[i]?) ∧
      ∀ i < m.length, i ≠ Y → i ≠ Yg → m'[i]? = m[i]? := by
  have lt : ∀ {l : Mem K} {i : ℕ} {B : Buf K}, l[i]? = some B → i < l.length := fun h => (List.getElem?_eq_some_iff.mp h).1
  have hYl := lt hV
  have hGl := lt hG
  obtain ⟨x, m1, e1, hx1, ho1⟩ := mirrorCopy_host hX
  have hl1 : m.length ≤ m1.length := by
    by_contra hc
    have hm : m1[m1.length]? = m[m1.length]? := ho1 _ (by omega)
    rw [List.getElem?_eq_none (le_refl _), List.getElem?_eq_getElem (by omega)] at hm
    cases hm
  obtain ⟨y, m2, sy, W, e2, hy2, hsy, hWe, hWl, ho2, hl2, hy⟩ := mirror_some ((ho1 Y hYl).trans hV) hVo
  obtain ⟨g, m3, sg, U, e3, hg3, hsg, hUe, hUl, ho3, hl3, hg⟩ :=
    mirror_some ((ho2 Yg (by omega)).trans ((ho1 Yg hGl).trans hG)) hGo
  dsimp only at hWe hWl hUe hUl
  have hx3 : m3[x]? = some ⟨.host, X⟩ := by rw [ho3 x (by have := lt hx1; omega), ho2 x (lt hx1)]; exact hx1
  have hy3 : m3[y]? = some ⟨sy, W⟩ := by rw [ho3 y (lt hy2)]; exact hy2
  have hV3 : m3[Y]? = some ⟨dflt sep, V⟩ := by rw [ho3 Y (by omega), ho2 Y (by omega), ho1 Y hYl]; exact hV
  have hG3 : m3[Yg]? = some ⟨dflt sep, G⟩ := by rw [ho3 Yg (by omega), ho2 Yg (by omega), ho1 Yg hGl]; exact hG
  have hyg : y ≠ g := by have := lt hy2; rcases hy with h | h <;> rcases hg with h' | h' <;> omega
  have hgY : g ≠ Y := by rcases hg with h' | h' <;> omega
  have hyG : y ≠ Yg := by rcases hy with h' | h' <;> omega
  generalize hO : sph (X.data.take (3 * num)) = O at h1 h2 ⊢
  obtain ⟨O1, O2⟩ := O
  dsimp only at h1 h2
  have s4 := hmod_some hy3 hsy (writeFront_eq (l := O1) (by omega))
  have hg4 : (m3.set y ⟨sy, ⟨W.ext, O1 ++ W.data.drop O1.length⟩⟩)[g]? = some ⟨sg, U⟩ := by
    rw [List.getElem?_set_ne hyg]; exact hg3
  have s5 := hmod_some hg4 hsg (writeFront_eq (l := O2) (by omega))
  generalize hA : (⟨W.ext, O1 ++ W.data.drop O1.length⟩ : View K) = A at s4 s5 hg4
  generalize hB : (⟨U.ext, O2 ++ U.data.drop O2.length⟩ : View K) = B at s5
  have hAe : A.ext = V.ext := by rw [← hA]; exact hWe
  have hBe : B.ext = G.ext := by rw [← hB]; exact hUe
  have q1 : ((m3.set y ⟨sy, A⟩).set g ⟨sg, B⟩)[y]? = some ⟨sy, A⟩ := by
    rw [List.getElem?_set_ne hyg.symm, List.getElem?_set_self (lt hy3)]
  have q2 : ∃ D : Buf K, ((m3.set y ⟨sy, A⟩).set g ⟨sg, B⟩)[Y]? = some D ∧ D.space = dflt sep ∧ D.view.ext = V.ext := by
    by_cases h : y = Y
    · subst h
      rw [hV3] at hy3
      cases hy3
      exact ⟨_, q1, rfl, hAe⟩
    · exact ⟨⟨dflt sep, V⟩, by rw [List.getElem?_set_ne hgY, List.getElem?_set_ne h]; exact hV3, rfl, rfl⟩
  obtain ⟨D, hD, hDs, hDe⟩ := q2
  have s6 := deepCopy_some hD q1 (hDe.trans hAe.symm)
  dsimp only at s6
  have q3 : (((m3.set y ⟨sy, A⟩).set g ⟨sg, B⟩).set Y ⟨D.space, A⟩)[g]? = some ⟨sg, B⟩ := by
    rw [List.getElem?_set_ne hgY.symm, List.getElem?_set_self (by simpa using lt hg3)]
  have q4 : ∃ E : Buf K, (((m3.set y ⟨sy, A⟩).set g ⟨sg, B⟩).set Y ⟨D.space, A⟩)[Yg]? = some E ∧ E.space = dflt sep ∧ E.view.ext = G.ext := by
    by_cases h : g = Yg
    · subst h
      rw [hG3] at hg3
      cases hg3
      exact ⟨_, q3, rfl, hBe⟩
    · exact ⟨⟨dflt sep, G⟩, by
        rw [List.getElem?_set_ne hne, List.getElem?_set_ne h, List.getElem?_set_ne hyG]; exact hG3, rfl, rfl⟩
  obtain ⟨E, hE, hEs, hEe⟩ := q4
  have s7 := deepCopy_some hE q3 (hEe.trans hBe.symm)
  dsimp only at s7
  refine ⟨(((m3.set y ⟨sy, A⟩).set g ⟨sg, B⟩).set Y ⟨D.space, A⟩).set Yg ⟨E.space, B⟩, A, B, ?_, ?_, ?_, hAe, hBe, fun i hi => ?_, fun i hi => ?_, fun i hi hiY hiG => ?_⟩
  rotate_left
  · rw [List.getElem?_set_ne hne.symm, List.getElem?_set_self (lt hD), hDs]
  · rw [List.getElem?_set_self (lt hE), hEs]
  · rw [← hA]; exact List.getElem?_append_left hi
  · rw [← hB]; exact List.getElem?_append_left hi
  · rw [List.getElem?_set_ne hiG.symm, List.getElem?_set_ne hiY.symm, List.getElem?_set_ne (by omega), List.getElem?_set_ne (by omega),
      ho3 i (by omega), ho2 i (by omega), ho1 i hi]
  · simp only [hostHarmonics, e1, e2, e3, Option.bind_eq_bind, Option.bind_some, hx3, hO, s4, s5, s6, s7]

/-- With two memories host code cannot write to a view of the default memory: a table filled without a mirror is undefined. -/
example : hset (alloc [] (dflt true) (View.new [2] (0 : ℤ))).2 0 [1] 5 = none ∧
    (hset (alloc [] (dflt false) (View.new [2] (0 : ℤ))).2 0 [1] 5).isSome = true := by decide

/-- Both settings of a table of monomials: 9 is what the memory held. -/
example : ∀ sep, ((padTable sep [] 2 [[4], [1, 2]] ⟨[2, 3], [9, 9, 9, 9, 9, 9]⟩).bind (fun r => view2vector2 r.2 r.1)) =
    some [4, -1, -1, 1, 2, -1] := by decide

/-- Harmonics on a machine with two memories; the arrays are longer than needed. -/
example : (hostHarmonics [⟨.device, ⟨[3], [1, 2, 3]⟩⟩, ⟨.device, ⟨[2], [0, 7]⟩⟩, ⟨.device, ⟨[4], [0, 0, 0, 7]⟩⟩] 1 0 1 2
    (fun p => ([p.sum], p.map (2 * ·)))).bind (fun m => do
      let y ← view2vector1 m 1
      let g ← view2vector1 m 2
      pure (y.take 1, g.take 3)) = some ([(6 : ℤ)], [2, 4, 6]) := by decide

end Verif.Props
