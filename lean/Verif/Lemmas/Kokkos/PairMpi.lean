import Verif.Lemmas.Kokkos.PairSingle
import Verif.Lemmas.Kokkos.PartEval
import Verif.Lemmas.Kokkos.Comm
import Verif.Lemmas.Lammps.MpiAll
import Verif.Model.Kokkos.PairMpi

/-! # The Kokkos pair style with MPI message passing: the phases on one process and the communication -/

namespace Verif.Kokkos.Pair
open Verif.Par Verif.Par.Prog Verif.Lammps Verif.MACE Verif.Spec

theorem ProcK.H1_set (q : ProcK) (v : View ℝ) : (q.setH1 v).H1 = v := by
  unfold ProcK.setH1 ProcK.H1
  cases q.own <;> rfl

theorem ProcK.set_set (q : ProcK) (v v' : View ℝ) : (q.setH1 v).setH1 v' = q.setH1 v' := by
  obtain ⟨w, e, s, own, t⟩ := q
  cases own <;> rfl

theorem ProcK.set_H1 (q : ProcK) : q.setH1 q.H1 = q := by
  obtain ⟨w, e, s, own, t⟩ := q
  cases own <;> rfl

theorem ProcK.set_t (q : ProcK) (v : View ℝ) : (q.setH1 v).t = q.t ∧ (q.setH1 v).w = q.w ∧ (q.setH1 v).edges = q.edges := by
  obtain ⟨w, e, s, own, t⟩ := q
  cases own <;> exact ⟨rfl, rfl, rfl⟩

/-- The evaluator's state up to `H1`. -/
theorem ProcK.set_s (q : ProcK) (v : View ℝ) : { (q.setH1 v).s with H1 := v } = { q.s with H1 := v } := by
  obtain ⟨w, e, s, own, t⟩ := q
  cases own <;> rfl

/-! ## Sorting -/

/-- A view with room for `n` rows whose rows `l ii` are `h ii`. -/
def RowsAt (v : View ℝ) (l : List ℕ) (LM C : ℕ) (h : ℕ → ℕ → ℕ → ℝ) : Prop :=
  ∀ ii < l.length, ∀ a < LM, ∀ k < C, v.get [nthN l ii, a, k] = some (h ii a k)

section
variable {A : Atoms} {L : NList} {LM C : ℕ} {h : ℕ → ℕ → ℕ → ℝ} {rows : ℕ}

theorem nthN_mem {l : List ℕ} {i : ℕ} (hi : i < l.length) : nthN l i ∈ l := by
  rw [nthN_getElem hi]; exact List.getElem_mem hi

theorem nthN_inj {l : List ℕ} (hl : l.Nodup) {i j : ℕ} (hi : i < l.length) (hj : j < l.length) (e : nthN l i = nthN l j) : i = j := by
  rw [nthN_getElem hi, nthN_getElem hj] at e
  exact (hl.getElem_inj_iff).mp e

theorem sort_spec (V : PEnv) (hL : ListOk A L) (hr : ∀ i ∈ centres L, i < rows) {Hm v : View ℝ} (hm : G3 Hm L.inum LM C h)
    (hv : Room v [LM, C] rows) :
    ∃ v', V.L.launch1 (sortK L.inum LM C L.ilist Hm (fun _ => v.ext)) v = some v' ∧ Room v' [LM, C] rows ∧ RowsAt v' (centres L) LM C h := by
  have hlen := centres_length hL
  have hlt : ∀ ii < L.inum, nthN (centres L) ii < rows := fun ii hii => hr _ (nthN_mem (by omega))
  have hp : Lc (fun _ => v.ext) (sortK L.inum LM C L.ilist Hm (fun _ => v.ext))
      (ex L.inum fun ii => ex LM fun a => ex C fun k => {((), [nthN (centres L) ii, a, k])})
      (fun c _ => h (rank (centres L) (c.2.getD 0 0)) (c.2.getD 1 0) (c.2.getD 2 0)) := by
    refine Lc.parFor (fun ii hi => Lc.parFor (fun a ha => Lc.parFor (fun k hk => Lc.opt
      (a := (nthN (centres L) ii, h ii a k)) ?_ (Lc.put (fun x => ?_))) ?_) ?_) ?_
    · unfold both
      rw [ilist_get hL hi, hm ii hi a ha k hk]
      rfl
    · have : rank (centres L) (nthN (centres L) ii) = ii := by
        rw [nthN_getElem (by omega)]
        exact rank_get hL.nodup _
      simp [this]
    · rintro k hk k' hk' c rfl e
      simpa using congrArg Prod.snd e
    · rintro a ha a' ha' c ⟨k, hk, rfl⟩ ⟨k', hk', e⟩
      have := congrArg Prod.snd e
      simp at this
      exact this.1
    · rintro i hi i' hi' c ⟨a, ha, k, hk, rfl⟩ ⟨a', ha', k', hk', e⟩
      have := congrArg Prod.snd e
      simp at this
      exact nthN_inj hL.nodup (by omega) (by omega) this.1
  obtain ⟨v', h1, h2, h3, h4, -⟩ := launch1_lc V.L (fun c => (v.get c).getD 0) hp (by
    rintro c ⟨ii, hi, a, ha, k, hk, e⟩
    obtain rfl : c = [nthN (centres L) ii, a, k] := congrArg Prod.snd e
    obtain ⟨y, hy⟩ := hv.has3 (hlt ii hi) ha hk
    rw [hy]; rfl)
  refine ⟨v', h1, hv.of_ext h2 (h3 hv.1), fun ii hii a ha k hk => ?_⟩
  rw [h4 _ ⟨ii, by omega, a, ha, k, hk, rfl⟩]
  have : rank (centres L) (nthN (centres L) ii) = ii := by
    rw [nthN_getElem hii]
    exact rank_get hL.nodup _
  simp [this]

theorem get_put {ι K : Type} (E : ι → List ℕ) (b : ι) (is : List ℕ) :
    Prog.get E b is (fun x => put E b is x) = upd E b is (fun x : K => x) := by
  unfold Prog.get put upd
  cases flat (E b) is 0 <;> rfl

/-- In natural order sorting a view into itself changes nothing. -/
theorem sortSame_spec (V : PEnv) (hL : ListOk A L) (ho : centres L = List.range L.inum) {v : View ℝ}
    (hm : G3 v L.inum LM C h) (hv : Room v [LM, C] rows) :
    ∃ v', V.L.launch1 (sortSameK L.inum LM C L.ilist (fun _ => v.ext)) v = some v' ∧ Room v' [LM, C] rows ∧
      RowsAt v' (centres L) LM C h := by
  have hn : ∀ ii < L.inum, nthN (centres L) ii = ii := fun ii hii => by
    rw [ho, nthN_getElem (by simpa using hii)]; simp
  have hp : Lc (fun _ => v.ext) (sortSameK L.inum LM C L.ilist (fun _ => v.ext))
      (ex L.inum fun ii => ex LM fun a => ex C fun k => {((), [ii, a, k])}) (fun _ x => x) := by
    refine Lc.parFor (fun ii hi => Lc.parFor (fun a ha => Lc.parFor (fun k hk => Lc.opt (ilist_get hL hi) ?_) ?_) ?_) ?_
    · rw [hn ii hi, get_put]
      exact Lc.upd (fun x => rfl)
    · rintro k hk k' hk' c rfl e
      simpa using congrArg Prod.snd e
    · rintro a ha a' ha' c ⟨k, hk, rfl⟩ ⟨k', hk', e⟩
      have := congrArg Prod.snd e
      simp at this
      exact this.1
    · rintro i hi i' hi' c ⟨a, ha, k, hk, rfl⟩ ⟨a', ha', k', hk', e⟩
      have := congrArg Prod.snd e
      simp at this
      exact this.1
  obtain ⟨v', h1, h2, h3, h4, -⟩ := launch1_lc V.L (fun c => (v.get c).getD 0) hp (by
    rintro c ⟨ii, hi, a, ha, k, hk, e⟩
    obtain rfl : c = [ii, a, k] := congrArg Prod.snd e
    rw [hm ii hi a ha k hk]; rfl)
  refine ⟨v', h1, hv.of_ext h2 (h3 hv.1), fun ii hii a ha k hk => ?_⟩
  have hii' : ii < L.inum := by rw [← centres_length hL]; exact hii
  rw [hn ii hii', h4 _ ⟨ii, hii', a, ha, k, hk, rfl⟩, hm ii hii' a ha k hk]
  rfl

/-! ## First phase -/

/-- The pair style's own view, if there is one, is usable. -/
def OwnOk (own : Option (View ℝ)) (LM C : ℕ) : Prop := ∀ v, own = some v → Room v [LM, C] 0

theorem ownNext_none {P : Params ℝ} {own : Option (View ℝ)} {old M0 new : View ℝ} (h : ownNext P own old M0 new rows = none) :
    own = none ∧ ¬ new.extent 0 < rows := by
  unfold ownNext at h
  dsimp only at h
  split_ifs at h with h1 h2 h3
  subst h
  exact ⟨rfl, h3⟩

theorem ownNext_some {P : Params ℝ} {own : Option (View ℝ)} {old M0 new v : View ℝ} (h : ownNext P own old M0 new rows = some v)
    (ho : OwnOk own P.LM P.C) (hold : Room old [P.LM, P.C] 0) : Room v [P.LM, P.C] rows := by
  unfold ownNext at h
  dsimp only at h
  split_ifs at h with h1 h2 h3
  · rw [← Option.some.inj h]
    exact Room.new _ _ _
  · obtain rfl := Option.some.inj h
    refine Room.extent (m := 0) ?_ h2
    cases own with
    | none => exact hold
    | some v => exact ho v rfl
  · rw [← Option.some.inj h]
    exact Room.new _ _ _
  · subst h
    exact (ho v rfl).extent h3

theorem sortStep_spec (V : PEnv) {P : Params ℝ} (hL : ListOk A L) (hr : ∀ i ∈ centres L, i < rows) {q : ProcK}
    (hor : centres L = List.range L.inum ∨ q.own ≠ none) (hm : G3 q.s.H1 L.inum P.LM P.C h) (hv : Room q.H1 [P.LM, P.C] rows) :
    ∃ v, sortStep V P L q = some (q.setH1 v) ∧ Room v [P.LM, P.C] rows ∧ RowsAt v (centres L) P.LM P.C h := by
  obtain ⟨w, e, s, own, t⟩ := q
  cases own with
  | some u =>
    obtain ⟨v, h1, h2, h3⟩ := sort_spec V hL hr hm hv
    exact ⟨v, (bind_of_some h1 _), h2, h3⟩
  | none =>
    obtain ⟨v, h1, h2, h3⟩ := sortSame_spec V hL (hor.resolve_right (fun h => h rfl)) hm hv
    exact ⟨v, (bind_of_some h1 _), h2, h3⟩

end

variable {A : Atoms} {L : NList} {rc : ℝ} {mt : List ℕ} {f : File} {sph : ℝ → ℝ → ℝ → ℕ → ℝ} {dsph : ℝ → ℝ → ℝ → ℕ → ℕ → ℝ}
  {P : Kokkos.Params ℝ}

/-- The state after the first phase, up to the pair style's `H1`. -/
structure PhK1 (V : PEnv) (P : Kokkos.Params ℝ) (f : File) (sph : ℝ → ℝ → ℝ → ℕ → ℝ) (dsph : ℝ → ℝ → ℝ → ℕ → ℕ → ℝ) (rc : ℝ)
    (mt : List ℕ) (A : Atoms) (L : NList) (q q' : ProcK) : Prop where
  t : q'.t = q.t
  holds : Holds A L rc (centres L) (fun j => j) q'.w
  graph : q'.w.graph L.inum q'.edges = (locSys A L rc mt).graph (locVecs A L rc)
  st : ∀ v, Room v [P.LM, P.C] 0 → KSt P (netOf f) f.phil.length 2 { q'.s with H1 := v }
  data : FirstData V.toEnv P (netOf f) f.nT ((locSys A L rc mt).graph (locVecs A L rc)) (confOf f sph (locSys A L rc mt) (locVecs A L rc))
    (dconfOf f dsph (locSys A L rc mt) (locVecs A L rc)) q'.s
  en : All q'.s.energies L.inum (fun i => if i < L.inum then (confOf f sph (locSys A L rc mt) (locVecs A L rc)).pairE i else 0)
  fo : Fc q'.s.forces (locSys A L rc mt).E (fun e a => if e < (locSys A L rc mt).E then
    zblForce f (locSys A L rc mt) (locVecs A L rc) e a else 0)

theorem FirstData.setH1 {K : Type} [Field K] [LinearOrder K] [FloorRing K] {V : Env K} {P : Params K} {W : Net K} {nT : ℕ} {g : Graph K}
    {c : Conf K} {d : DConf K} {s : State K} (h : FirstData V P W nT g c d s) (v : View K) : FirstData V P W nT g c d { s with H1 := v } :=
  h.carry rfl rfl rfl rfl rfl rfl rfl rfl rfl

theorem PhK1.set {V : PEnv} {q q' : ProcK} (h : PhK1 V P f sph dsph rc mt A L q q') (v : View ℝ) :
    PhK1 V P f sph dsph rc mt A L q (q'.setH1 v) := by
  obtain ⟨w, e, s, own, t⟩ := q'
  cases own with
  | some u => exact ⟨h.t, h.holds, h.graph, h.st, h.data, h.en, h.fo⟩
  | none => exact ⟨h.t, h.holds, h.graph, h.st, FirstData.setH1 h.data v, h.en, h.fo⟩

theorem mpiK1_spec (V : PEnv) (hf : FileOk f) (hP : LoadedK f sph dsph P) (hA : AtomsOk A mt f.nT) (hL : ListOk A L)
    (hn : L.inum = A.nlocal) (hX : Inside f (locSys A L rc mt) (locVecs A L rc)) {q : ProcK} (hs : StOkK f P q.s)
    (hown : OwnOk q.own P.LM P.C) (hor : centres L = List.range L.inum ∨ q.own ≠ none) :
    ∃ q', mpiK1 V f.zbl P rc mt A L q = some q' ∧ PhK1 V P f sph dsph rc mt A L q q' ∧ Room q'.H1 [P.LM, P.C] (natoms A) ∧
      RowsAt q'.H1 (centres L) P.LM P.C (h1 (netOf f) (confOf f sph (locSys A L rc mt) (locVecs A L rc))) := by
  obtain ⟨w', b1, b2, b3⟩ := graphViews_spec (rc := rc) (node := fun ii => L.ilist[ii]?) (look := some) (jOf := fun j => j) V hA
    (centres_length hL) hL.entry (fun ii hii => ilist_get hL hii) (fun _ _ _ _ => rfl) q.w
  have hT := loc_in (rc := rc) hA hL
  have hN : (locSys A L rc mt).N = L.inum := centres_length hL
  have hEx : ((locSys A L rc mt).graph (locVecs A L rc)).Ex = (locSys A L rc mt).E := by rw [graph_gx]; exact gx_Ex
  have hg : GOk ((locSys A L rc mt).graph (locVecs A L rc)) f.nT (natoms A) (confOf f sph (locSys A L rc mt) (locVecs A L rc))
      (nthN (locSys A L rc mt).nn) (dconfOf f dsph (locSys A L rc mt) (locVecs A L rc)).X
      (dconfOf f dsph (locSys A L rc mt) (locVecs A L rc)).R := graph_ok hT le_rfl
  have hk := kfeat hf hT hP hX
  obtain ⟨s0, e0, k0, en0, fo0⟩ := startPair_spec (X := locVecs A L rc) (sph := sph) V.toEnv hf hT hP (nl := (locSys A L rc mt).N) le_rfl hs
    (locSys A L rc mt).idx
  obtain ⟨s1, e1, k1, en1, fo1, fd1, hr1, hh1⟩ := firstLayer_spec V.toEnv hP.wok hg hEx hk k0
  have hg1 : w'.graph L.inum (bonds A L rc (centres L)).length = (locSys A L rc mt).graph (locVecs A L rc) := b3
  rw [← hP.wok.LM, ← hP.wok.C] at hr1 hh1
  have hold : Room s0.H1 [P.LM, P.C] 0 := by have := k0.H1; rwa [← hP.wok.LM, ← hP.wok.C] at this
  have hN' : ((locSys A L rc mt).graph (locVecs A L rc)).N = L.inum := hN
  rw [hN'] at hr1 hh1
  set q1 : ProcK := { q with w := w', edges := (bonds A L rc (centres L)).length, s := s1, own := ownNext P q.own s0.H1 s1.M0 s1.H1 (L.inum + A.nghost) } with hq1
  have hroom : Room q1.H1 [P.LM, P.C] (L.inum + A.nghost) := by
    cases ho : ownNext P q.own s0.H1 s1.M0 s1.H1 (L.inum + A.nghost) with
    | some v =>
      have : q1.H1 = v := by rw [hq1]; unfold ProcK.H1; rw [ho]; rfl
      rw [this]
      exact ownNext_some ho hown hold
    | none =>
      have : q1.H1 = s1.H1 := by rw [hq1]; unfold ProcK.H1; rw [ho]; rfl
      rw [this]
      exact hr1.extent (ownNext_none ho).2
  obtain ⟨v, x1, x2, x3⟩ := sortStep_spec V (q := q1) hL (fun i hi => by have := hL.loc i hi; omega)
    (hor.imp id (fun h1 h2 => h1 (ownNext_none h2).1)) hh1 hroom
  have hph : PhK1 V P f sph dsph rc mt A L q q1 := by
    refine ⟨rfl, b2, hg1, fun v hv => ?_, fd1, ?_, ?_⟩
    · rw [hP.wok.LM, hP.wok.C] at hv
      exact { k1 with H1 := hv }
    · change All s1.energies _ _
      rw [en1, ← hN]
      exact en0
    · change Fc s1.forces _ _
      rw [fo1]
      exact fo0
  refine ⟨q1.setH1 v, ?_, hph.set v, ?_, ?_⟩
  · unfold mpiK1
    refine (bind_of_some b1 _).trans ?_
    dsimp only
    rw [hg1]
    exact (bind_of_some e0 _).trans <| (bind_of_some e1 _).trans x1
  · rw [ProcK.H1_set, natoms, ← hn]; exact x2
  · rw [ProcK.H1_set]; exact x3

/-! ## Forward communication -/

section comm
variable {np : ℕ} {As : ℕ → Atoms} {κ : ℕ → ℕ → ℕ} {ms : List Msg} {V : ℕ → PEnv}

/-- One forward message. -/
theorem sendForwardK_spec {m : Msg} {st : ℕ → ProcK} {x : ℕ → ℕ → ℕ → ℝ} {N : ℕ}
    (hl : ∀ ii < m.list.length, ∀ a < P.LM, ∀ k < P.C, (st m.src).H1.get [nthN m.list ii, a, k] = some (x ii a k))
    (hr : m.first + m.list.length ≤ N) (hd : Room (st m.dst).H1 [P.LM, P.C] N) :
    ∃ G, sendForwardK V P m st = some (Function.update st m.dst ((st m.dst).setH1 G)) ∧ Room G [P.LM, P.C] N ∧
      (∀ ii < m.list.length, ∀ a < P.LM, ∀ k < P.C, G.get [m.first + ii, a, k] = some (x ii a k)) ∧
      ∀ j a k, (j < m.first ∨ m.first + m.list.length ≤ j) → G.get [j, a, k] = (st m.dst).H1.get [j, a, k] := by
  obtain ⟨b, h1, h2, h3, h4⟩ := packForward_spec (V m.src).toEnv (LM := P.LM) (C := P.C) (n := m.list.length) (list := m.list)
    (H1 := (st m.src).H1) (buf := View.new [m.list.length * P.LM * P.C] 0) (H := fun i a k => (((st m.src).H1.get [i, a, k]).getD 0))
    (l := nthN m.list) (fun ii hii => some_nthN hii) (fun ii hii a ha k hk => by rw [hl ii hii a ha k hk]; rfl) (View.new_ok _ _) rfl le_rfl
  obtain ⟨G, g1, g2, g3, g4, g5⟩ := unpackForward_spec (V m.dst).toEnv (first := m.first) (H1 := (st m.dst).H1) (buf := b) (x := x)
    (fun ii hii a ha k hk => by rw [h4 ii hii a ha k hk, hl ii hii a ha k hk]; rfl)
    (fun ii hii a ha k hk => hd.has3 (by omega) ha hk)
  refine ⟨G, ?_, hd.of_ext g2 (g3 hd.1), g4, fun j a k hj => g5 _ (fun i hi a' _ k' _ e => ?_)⟩
  · unfold sendForwardK
    exact (bind_of_some h1 _).trans <| (bind_of_some g1 _)
  · have := (List.cons.inj e).1
    omega

theorem forwardCommK_snoc (m : Msg) (st : ℕ → ProcK) :
    forwardCommK V P (ms ++ [m]) st = (forwardCommK V P ms st).bind (sendForwardK V P m) := by
  unfold forwardCommK
  rw [List.foldlM_append]
  simp [Option.bind_eq_bind, Option.pure_def]

/-- After the forward communication all known rows are those of the atoms they are images of. -/
theorem forwardCommK_spec {x : ℕ → ℕ → ℕ → ℝ} {st : ℕ → ProcK} (h : PlanOk np As κ ms)
    (hr : ∀ p < np, Room (st p).H1 [P.LM, P.C] (natoms (As p)))
    (hg : ∀ p < np, ∀ j < (As p).nlocal, ∀ a < P.LM, ∀ k < P.C, (st p).H1.get [j, a, k] = some (x (κ p j) a k)) :
    ∃ st', forwardCommK V P ms st = some st' ∧ ∀ p < np, ∃ v, st' p = (st p).setH1 v ∧ Room v [P.LM, P.C] (natoms (As p)) ∧
      ∀ j, Known As ms p j → ∀ a < P.LM, ∀ k < P.C, v.get [j, a, k] = some (x (κ p j) a k) := by
  induction ms using List.reverseRecOn with
  | nil =>
    refine ⟨st, rfl, fun p hp => ⟨(st p).H1, (ProcK.set_H1 _).symm, hr p hp, fun j hj => ?_⟩⟩
    rcases hj with h1 | ⟨m, hm, _⟩
    · exact hg p hp j h1
    · cases hm
  | append_singleton ms m ih =>
    obtain ⟨st1, e1, e2⟩ := ih h.init
    have hm : m ∈ ms ++ [m] := by simp
    obtain ⟨ps, pd⟩ := h.proc m hm
    have hl := fun k hk => (h.list_lt (k := k) hk)
    obtain ⟨vs, s1, s2, s3⟩ := e2 _ ps
    obtain ⟨vd, d1, d2, d3⟩ := e2 _ pd
    obtain ⟨G, g1, g2, g3, g4⟩ := sendForwardK_spec (V := V) (P := P) (m := m) (st := st1) (x := fun ii a k => x (κ m.dst (m.first + ii)) a k)
      (N := natoms (As m.dst))
      (fun ii hii a ha k hk => by
        rw [s1, ProcK.H1_set, s3 _ (hl ii hii).1 a ha k hk, h.image m hm ii hii])
      (h.range m hm) (by rw [d1, ProcK.H1_set]; exact d2)
    refine ⟨_, by rw [forwardCommK_snoc, e1, Option.bind_some, g1], fun p hp => ?_⟩
    by_cases hpd : p = m.dst
    · subst hpd
      refine ⟨G, by rw [Function.update_self, d1, ProcK.set_set], g2, fun j hj a ha k hk => ?_⟩
      by_cases hrg : m.first ≤ j ∧ j < m.first + m.list.length
      · have := g3 (j - m.first) (by omega) a ha k hk
        rw [show m.first + (j - m.first) = j by omega] at this
        exact this
      · rw [g4 j a k (by omega), d1, ProcK.H1_set]
        refine d3 j ?_ a ha k hk
        rcases hj with h1 | ⟨m', h1, h2, h3⟩
        · exact Or.inl h1
        · rcases List.mem_append.mp h1 with h4 | h4
          · exact Or.inr ⟨m', h4, h2, h3⟩
          · rw [List.mem_singleton.mp h4] at h3
            exact absurd h3 hrg
    · obtain ⟨v, v1, v2, v3⟩ := e2 p hp
      refine ⟨v, by rw [Function.update_of_ne hpd, v1], v2, fun j hj => v3 j ?_⟩
      rcases hj with h1 | ⟨m', h1, h2, h3⟩
      · exact Or.inl h1
      · rcases List.mem_append.mp h1 with h4 | h4
        · exact Or.inr ⟨m', h4, h2, h3⟩
        · rw [List.mem_singleton.mp h4] at h2
          exact absurd h2.symm hpd

/-! ## Reverse communication -/

/-- The state after the adjoints have become `v`. -/
def ProcK.setAdj (q : ProcK) (v : View ℝ) : ProcK := { q with s := { q.s with H1a := v } }

/-- One answer. -/
theorem sendReverseK_spec {m : Msg} {st : ℕ → ProcK} {N : ℕ} {a : ℕ → ℕ → ℕ → ℝ}
    (hr : m.first + m.list.length ≤ natoms (As m.dst)) (hl : ∀ k < m.list.length, nthN m.list k < N)
    (hd : G3 (st m.dst).s.H1a (natoms (As m.dst)) P.LM P.C (fun j LM k => a m.dst j (LM * P.C + k)))
    (hs : Room (st m.src).s.H1a [P.LM, P.C] N) (hs' : G3 (st m.src).s.H1a N P.LM P.C (fun j LM k => a m.src j (LM * P.C + k))) :
    ∃ G, sendReverseK V P m st = some (Function.update st m.src ((st m.src).setAdj G)) ∧ Room G [P.LM, P.C] N ∧
      G3 G N P.LM P.C (fun j LM k => revRow m a m.src j (LM * P.C + k)) := by
  obtain ⟨b, h1, h2, h3, h4⟩ := packReverse_spec (V m.dst).toEnv (LM := P.LM) (C := P.C) (n := m.list.length) (first := m.first)
    (Ha := (st m.dst).s.H1a) (buf := View.new [m.list.length * P.LM * P.C] 0) (H := fun j LM k => a m.dst j (LM * P.C + k))
    (fun i hi c hc k hk => hd _ (by omega) c hc k hk) (View.new_ok _ _) rfl le_rfl
  obtain ⟨G, g1, g2, g3, g4, -⟩ := unpackReverse_spec (V m.src).toEnv (list := m.list) (buf := b) (Ha := (st m.src).s.H1a) (l := nthN m.list)
    (fun ii hii => some_nthN hii) hl h4 hs'
  refine ⟨G, ?_, hs.of_ext g2 (g3 hs.1), g4.congr (fun i _ c _ k _ => ?_)⟩
  · unfold sendReverseK
    exact (bind_of_some h1 _).trans <| (bind_of_some g1 _)
  · unfold revRow
    rw [if_pos rfl]

theorem reverseCommK_snoc (m : Msg) (st : ℕ → ProcK) :
    reverseCommK V P (ms ++ [m]) st = (sendReverseK V P m st).bind (reverseCommK V P ms) := by
  unfold reverseCommK
  rw [List.reverse_append]
  rfl

theorem reverseCommK_spec {st : ℕ → ProcK} {a : ℕ → ℕ → ℕ → ℝ} (h : PlanOk np As κ ms)
    (hr : ∀ p < np, Room (st p).s.H1a [P.LM, P.C] (natoms (As p)))
    (hH : ∀ p < np, G3 (st p).s.H1a (natoms (As p)) P.LM P.C (fun j LM k => a p j (LM * P.C + k))) :
    ∃ st', reverseCommK V P ms st = some st' ∧ ∀ p < np, ∃ v, st' p = (st p).setAdj v ∧ Room v [P.LM, P.C] (natoms (As p)) ∧
      G3 v (natoms (As p)) P.LM P.C (fun j LM k => revRows ms a p j (LM * P.C + k)) := by
  induction ms using List.reverseRecOn generalizing st a with
  | nil => exact ⟨st, rfl, fun p hp => ⟨(st p).s.H1a, rfl, hr p hp, hH p hp⟩⟩
  | append_singleton ms m ih =>
    have hm : m ∈ ms ++ [m] := by simp
    obtain ⟨ps, pd⟩ := h.proc m hm
    obtain ⟨G, g1, g2, g3⟩ := sendReverseK_spec (V := V) (P := P) (As := As) (m := m) (st := st) (a := a) (h.range m hm)
      (fun k hk => (h.list_lt hk).2) (hH _ pd) (hr _ ps) (hH _ ps)
    obtain ⟨st', e1, e2⟩ := ih (st := Function.update st m.src ((st m.src).setAdj G)) (a := revRow m a) h.init
      (fun p hp => by
        by_cases hps : p = m.src
        · subst hps; rw [Function.update_self]; exact g2
        · rw [Function.update_of_ne hps]; exact hr p hp)
      (fun p hp => by
        by_cases hps : p = m.src
        · subst hps; rw [Function.update_self]; exact g3
        · rw [Function.update_of_ne hps]
          refine (hH p hp).congr (fun j _ c _ k _ => ?_)
          unfold revRow
          rw [if_neg hps, add_zero])
    refine ⟨st', by rw [reverseCommK_snoc, g1, Option.bind_some, e1], fun p hp => ?_⟩
    obtain ⟨v, v1, v2, v3⟩ := e2 p hp
    refine ⟨v, ?_, v2, by rw [revRows_snoc]; exact v3⟩
    by_cases hps : p = m.src
    · subst hps; rw [v1, Function.update_self]; rfl
    · rw [v1, Function.update_of_ne hps]

end comm

/-! ## Second and third phase -/

/-- The state after the second phase, with rows `H` of first-layer features. -/
structure PhK2 (V : PEnv) (P : Kokkos.Params ℝ) (f : File) (sph : ℝ → ℝ → ℝ → ℕ → ℝ) (dsph : ℝ → ℝ → ℝ → ℕ → ℕ → ℝ) (rc : ℝ)
    (mt : List ℕ) (A : Atoms) (L : NList) (H : ℕ → ℕ → ℕ → ℝ) (q q' : ProcK) : Prop where
  t : q'.t = q.t
  own : q'.own = none
  holds : Holds A L rc (centres L) (fun j => j) q'.w
  graph : q'.w.graph L.inum q'.edges = (locSys A L rc mt).graph (locVecs A L rc)
  st : KSt P (netOf f) f.phil.length 2 q'.s
  data : FirstData V.toEnv P (netOf f) f.nT ((locSys A L rc mt).graph (locVecs A L rc)) (confOf f sph (locSys A L rc mt) (locVecs A L rc))
    (dconfOf f dsph (locSys A L rc mt) (locVecs A L rc)) q'.s
  en : All q'.s.energies L.inum (fun i => if i < L.inum then
    nodeE (netOf f) (confOf f sph (locSys A L rc mt) (locVecs A L rc)) H i else 0)
  fo : Fc q'.s.forces (locSys A L rc mt).E (fun e a => (if e < (locSys A L rc mt).E then
      zblForce f (locSys A L rc mt) (locVecs A L rc) e a else 0)
    + onE (locSys A L rc mt).nn (locSys A L rc mt).N (forceL2 (netOf f) (confOf f sph (locSys A L rc mt) (locVecs A L rc))
      (dconfOf f dsph (locSys A L rc mt) (locVecs A L rc)) H (roGrad f)) e a)

theorem mpiK2_spec (V : PEnv) (hf : FileOk f) (hP : LoadedK f sph dsph P) (hA : AtomsOk A mt f.nT) (hL : ListOk A L)
    (hn : L.inum ≤ natoms A) (hX : Inside f (locSys A L rc mt) (locVecs A L rc)) {q0 q : ProcK} (h1 : PhK1 V P f sph dsph rc mt A L q0 q)
    {H : ℕ → ℕ → ℕ → ℝ} (hr : Room q.H1 [P.LM, P.C] (natoms A)) (hH : G3 q.H1 (natoms A) P.LM P.C H) :
    ∃ q', mpiK2 V P L q = some q' ∧ PhK2 V P f sph dsph rc mt A L H q0 q' ∧ Room q'.s.H1a [P.LM, P.C] (natoms A) ∧
      G3 q'.s.H1a (natoms A) P.LM P.C
        (H1adj (netOf f) (confOf f sph (locSys A L rc mt) (locVecs A L rc)) L.inum H (roGrad f)) := by
  have hT := loc_in (rc := rc) hA hL
  have hN : (locSys A L rc mt).N = L.inum := centres_length hL
  have hEx : ((locSys A L rc mt).graph (locVecs A L rc)).Ex = (locSys A L rc mt).E := by rw [graph_gx]; exact gx_Ex
  have hg : GOk ((locSys A L rc mt).graph (locVecs A L rc)) f.nT (natoms A) (confOf f sph (locSys A L rc mt) (locVecs A L rc))
      (nthN (locSys A L rc mt).nn) (dconfOf f dsph (locSys A L rc mt) (locVecs A L rc)).X
      (dconfOf f dsph (locSys A L rc mt) (locVecs A L rc)).R := graph_ok hT le_rfl
  have hk := kfeat hf hT hP hX
  have hst := h1.st q.H1 (hr.mono (Nat.zero_le _))
  have hr' := hr
  have hH' := hH
  rw [hP.wok.LM, hP.wok.C] at hr' hH'
  obtain ⟨s2, e2, k2, en2, fo2, hr2, ha2, c1, c2, c3, c4, c5, c6, c7, c8, c9, c10⟩ := secondLayer_spec V.toEnv hP.wok hg
    (by change (locSys A L rc mt).N ≤ _; omega) (RadX.none hEx) (ScX.none hEx) hk.n1 hk.r1 hk.s1 hst h1.data.Y h1.data.Yg hr' hH'
    (e := fun i => if i < L.inum then (confOf f sph (locSys A L rc mt) (locVecs A L rc)).pairE i else 0)
    (F := fun e a => if e < (locSys A L rc mt).E then zblForce f (locSys A L rc mt) (locVecs A L rc) e a else 0)
    (by change All q.s.energies (locSys A L rc mt).N _; rw [hN]; exact h1.en) (by rw [hEx]; exact h1.fo)
  have hN' : ((locSys A L rc mt).graph (locVecs A L rc)).N = L.inum := hN
  rw [hN'] at en2 ha2
  rw [hEx] at fo2
  rw [← hP.wok.LM, ← hP.wok.C] at hr2 ha2
  refine ⟨{ q with s := s2, own := none }, ?_, ⟨h1.t, rfl, h1.holds, h1.graph, k2, (FirstData.setH1 h1.data q.H1).carry c2 c3 c4 c5 c6 c7 c8 c9 c10,
    en2.congr (fun i => ?_), fo2⟩, hr2, ha2⟩
  · unfold mpiK2
    rw [h1.graph]
    exact bind_of_some e2 _
  · by_cases hi : i < L.inum
    · rw [if_pos hi, if_pos hi, if_pos hi]
      unfold nodeE
      ring
    · rw [if_neg hi, if_neg hi, if_neg hi, add_zero]

theorem PhK2.set {V : PEnv} {H : ℕ → ℕ → ℕ → ℝ} {q q' : ProcK} (h : PhK2 V P f sph dsph rc mt A L H q q') {v : View ℝ}
    (hv : Room v [P.LM, P.C] 0) (hP : LoadedK f sph dsph P) : PhK2 V P f sph dsph rc mt A L H q (q'.setAdj v) := by
  rw [hP.wok.LM, hP.wok.C] at hv
  exact ⟨h.t, h.own, h.holds, h.graph, { h.st with H1a := hv }, h.data.carry rfl rfl rfl rfl rfl rfl rfl rfl rfl, h.en, h.fo⟩

theorem mpiK3_spec (V : PEnv) (hf : FileOk f) (hP : LoadedK f sph dsph P) (hA : AtomsOk A mt f.nT) (hL : ListOk A L)
    (hn : L.inum ≤ natoms A) {q0 q : ProcK} {H Ha : ℕ → ℕ → ℕ → ℝ} (h2 : PhK2 V P f sph dsph rc mt A L H q0 q)
    (hHa : G3 q.s.H1a (natoms A) P.LM P.C Ha) {fl : Flags} (hv : fl.vAtom = false) {M : ℕ}
    (hf0 : q0.t.f = tab2 M 3 (fun a c => nth q0.t.f (3 * a + c))) (hM : natoms A ≤ M) (hm : 6 ≤ q0.t.virial.length)
    (hea : L.inum ≤ q0.t.eatom.length) :
    ∃ q', mpiK3 V P fl L q = some q' ∧ StOkK f P q'.s ∧ q'.own = none ∧
      q'.t = { mpiOut f sph dsph rc mt fl A L H Ha M q0.t with
        eatom := if fl.eAtom then tab q0.t.eatom.length (fun i => if i < L.inum then
          nth q0.t.eatom i + nodeE (netOf f) (confOf f sph (locSys A L rc mt) (locVecs A L rc)) H i else nth q0.t.eatom i)
          else q0.t.eatom } := by
  have hT := loc_in (rc := rc) hA hL
  have hN : (locSys A L rc mt).N = L.inum := centres_length hL
  have hE : (locSys A L rc mt).E = (bonds A L rc (centres L)).length := sysOf_E _ _
  have hEx : ((locSys A L rc mt).graph (locVecs A L rc)).Ex = (locSys A L rc mt).E := by rw [graph_gx]; exact gx_Ex
  have hg : GOk ((locSys A L rc mt).graph (locVecs A L rc)) f.nT (natoms A) (confOf f sph (locSys A L rc mt) (locVecs A L rc))
      (nthN (locSys A L rc mt).nn) (dconfOf f dsph (locSys A L rc mt) (locVecs A L rc)).X
      (dconfOf f dsph (locSys A L rc mt) (locVecs A L rc)).R := graph_ok hT le_rfl
  have hN' : ((locSys A L rc mt).graph (locVecs A L rc)).N = L.inum := hN
  have hHa' : G3 q.s.H1a ((locSys A L rc mt).graph (locVecs A L rc)).N (netOf f).LM (netOf f).C Ha := by
    rw [hN', ← hP.wok.LM, ← hP.wok.C]
    exact fun i hi => hHa i (by omega)
  obtain ⟨s3, e3, k3, en3, fo3, -, -⟩ := firstLayerBack_spec V.toEnv hP.wok hg h2.st h2.data hHa' (by rw [hEx]; exact h2.fo)
  rw [hEx] at fo3
  have hfo : ∀ e < (bonds A L rc (centres L)).length, ∀ c < 3, s3.forces.get [3 * e + c]
      = some (forcePart f sph dsph (locSys A L rc mt) (locVecs A L rc) L.inum H Ha e c) := fun e he c hc => by
    rw [← hE] at he
    have := fo3.has (p := 3 * e + c) (by omega)
    rw [show (3 * e + c) / 3 = e by omega, show (3 * e + c) % 3 = c by omega] at this
    dsimp only at this
    rw [this]
    have hpf := congrArg (fun l : List ℝ => l[e * 3 + c]?) (part_forces (f := f) (sph := sph) (dsph := dsph) (X := locVecs A L rc)
      (T := locSys A L rc mt) (nl := (locSys A L rc mt).N) le_rfl (H := H) (Ha := Ha))
    rw [getElem?_tab2 he hc, getElem?_tab2 he hc] at hpf
    rw [← hN, ← hpf, if_pos he, if_pos (show e < off (locSys A L rc mt).nn (locSys A L rc mt).N from he)]
    rfl
  have hfin := finish_spec (nE := L.inum) (M := M) (En := nodeE (netOf f) (confOf f sph (locSys A L rc mt) (locVecs A L rc)) H)
    (F := forcePart f sph dsph (locSys A L rc mt) (locVecs A L rc) L.inum H Ha) (f0 := fun a c => nth q0.t.f (3 * a + c))
    (v0 := nth q0.t.virial) (eng := q0.t.eng) (ea := q0.t.eatom) (energies := s3.energies) (forces := s3.forces) V h2.holds
    (fun i hi => by rw [en3, h2.en.has hi, if_pos hi]) hfo
    (fun i hi => by have := (hL.entry i hi).lt; unfold natoms at hM; omega)
    (fun i hi j hj => by have := nbrs_lt (hL.entry i hi) hj; unfold natoms at hM; omega) hea hm hv (fl := fl) (m := q0.t.virial.length)
  have hv0 : q0.t.virial = tab q0.t.virial.length (nth q0.t.virial) := by
    rw [eq_tab_iff]; exact ⟨rfl, fun i hi => get_nth hi⟩
  rw [centres_length hL, ← hf0, ← hv0, show (⟨q0.t.eng, q0.t.eatom, q0.t.f, q0.t.virial⟩ : Tally) = q.t from h2.t.symm] at hfin
  have hst : StOkK f P s3 := ⟨k3, by rw [en3]; exact h2.en.vec, All.vec fo3⟩
  have heq : mpiK3 V P fl L q = (firstLayerBack V.toEnv P (q.w.graph L.inum q.edges) q.s).bind (fun s =>
      (finish V fl L.inum L.inum q.w s.energies s.forces q.t).bind (fun t => some { q with s := s, t := t })) := rfl
  rw [heq, h2.graph, e3, Option.bind_some, hfin, Option.bind_some]
  refine ⟨_, rfl, hst, h2.own, ?_⟩
  dsimp only
  unfold mpiOut
  rw [← hv0]

/-! ## All processes -/

section all
variable {np : ℕ} {As : ℕ → Atoms} {Ls : ℕ → NList} {κ : ℕ → ℕ → ℕ} {A0 : Atoms} {L0 : NList} {ms : List Msg}

theorem computeMpiK_spec (V : ℕ → PEnv) (hf : FileOk f) (hP : LoadedK f sph dsph P)
    (h : Parts np As Ls κ (fun p => centres (Ls p)) A0 L0 rc mt)
    (hX : Inside f (periodic A0 L0 rc mt) (bondVecs A0 L0 rc)) (hp : ∀ p < np, ProcOk f mt (As p) (Ls p) (centres (Ls p)))
    (hloc : ∀ p < np, ∀ j < (As p).nlocal, j ∈ centres (Ls p)) (hpl : PlanOk np As κ ms)
    (hall : ∀ p < np, ∀ j < natoms (As p), Known As ms p j) {st : ℕ → ProcK}
    (hs : ∀ p < np, StOkK f P (st p).s ∧ OwnOk (st p).own P.LM P.C)
    (hor : ∀ p < np, centres (Ls p) = List.range (Ls p).inum ∨ (st p).own ≠ none)
    {fl : Flags} (hv : fl.vAtom = false) {M : ℕ → ℕ} (hM : ∀ p < np, natoms (As p) ≤ M p ∧
      (st p).t.f = tab2 (M p) 3 (fun a c => nth (st p).t.f (3 * a + c)))
    (hm : ∀ p < np, 6 ≤ (st p).t.virial.length) (hea : ∀ p < np, (Ls p).inum ≤ (st p).t.eatom.length) :
    ∃ st' : ℕ → ProcK, computeMpiK V f.zbl P rc mt fl np As Ls ms st = some st' ∧
      ∀ p < np, StOkK f P (st' p).s ∧ (st' p).own = none ∧
        (st' p).t = { mpiOut f sph dsph rc mt fl (As p) (Ls p)
          (feat f sph (periodic A0 L0 rc mt) (bondVecs A0 L0 rc) L0 (κ p)) (mpiAdj f sph rc mt As Ls κ ms A0 L0 p) (M p) (st p).t with
          eatom := if fl.eAtom then tab (st p).t.eatom.length (fun i => if i < (Ls p).inum then
            nth (st p).t.eatom i + nodeE (netOf f) (confOf f sph (locSys (As p) (Ls p) rc mt) (locVecs (As p) (Ls p) rc))
              (feat f sph (periodic A0 L0 rc mt) (bondVecs A0 L0 rc) L0 (κ p)) i else nth (st p).t.eatom i) else (st p).t.eatom } := by
  have hin : ∀ p < np, Inside f (locSys (As p) (Ls p) rc mt) (locVecs (As p) (Ls p) rc) :=
    fun p hp' => h.inside hp' (fun i hi => h.mem hp' hi) hX _
  have hnum : ∀ p < np, (Ls p).inum = (As p).nlocal := by
    intro p hp'
    have h1 := (hp p hp').list
    rw [← centres_length h1]
    refine le_antisymm ?_ ?_
    · simpa using (List.Nodup.subperm h1.nodup (fun i hi => List.mem_range.mpr (h1.loc i hi))).length_le
    · simpa using (List.Nodup.subperm (List.nodup_range (n := (As p).nlocal)) (fun i hi => hloc p hp' i (List.mem_range.mp hi))).length_le
  have hil : ∀ p < np, (Ls p).inum ≤ natoms (As p) := fun p hp' => by rw [hnum p hp']; exact Nat.le_add_right _ _
  -- first phase
  have p1 : ∀ p, ∃ q, p < np → mpiK1 (V p) f.zbl P rc mt (As p) (Ls p) (st p) = some q ∧
      PhK1 (V p) P f sph dsph rc mt (As p) (Ls p) (st p) q ∧ Room q.H1 [P.LM, P.C] (natoms (As p)) ∧
      RowsAt q.H1 (centres (Ls p)) P.LM P.C (h1 (netOf f) (confOf f sph (locSys (As p) (Ls p) rc mt) (locVecs (As p) (Ls p) rc))) := by
    intro p
    by_cases hp' : p < np
    · obtain ⟨q, hq⟩ := mpiK1_spec (V p) hf hP (hp p hp').atoms (hp p hp').list (hnum p hp') (hin p hp') (hs p hp').1 (hs p hp').2 (hor p hp')
      exact ⟨q, fun _ => hq⟩
    · exact ⟨st p, fun h => absurd h hp'⟩
  choose q1 hq1 using p1
  have e1 := eachProc_eq (fun p hp' => (hq1 p hp').1)
  -- forward communication
  obtain ⟨st2, c1, c2⟩ := forwardCommK_spec (V := V) (P := P) (st := fun p => if p < np then q1 p else st p)
    (x := fun b LM k => h1 (netOf f) (confOf f sph (periodic A0 L0 rc mt) (bondVecs A0 L0 rc)) (rank (centres L0) b) LM k) hpl
    (fun p hp' => by rw [if_pos hp']; exact (hq1 p hp').2.2.1)
    (fun p hp' j hj a ha k hk => by
      rw [if_pos hp']
      have hjc := hloc p hp' j hj
      have := (hq1 p hp').2.2.2 (rank (centres (Ls p)) j) (rank_lt hjc) a ha k hk
      rw [nthN_getElem (rank_lt hjc), get_rank hjc, h.h1_local hp' hjc] at this
      exact this)
  -- second phase
  have p2 : ∀ p, ∃ q, p < np → mpiK2 (V p) P (Ls p) (st2 p) = some q ∧
      PhK2 (V p) P f sph dsph rc mt (As p) (Ls p) (feat f sph (periodic A0 L0 rc mt) (bondVecs A0 L0 rc) L0 (κ p)) (st p) q ∧
      Room q.s.H1a [P.LM, P.C] (natoms (As p)) ∧ G3 q.s.H1a (natoms (As p)) P.LM P.C
        (H1adj (netOf f) (confOf f sph (locSys (As p) (Ls p) rc mt) (locVecs (As p) (Ls p) rc)) (Ls p).inum
          (feat f sph (periodic A0 L0 rc mt) (bondVecs A0 L0 rc) L0 (κ p)) (roGrad f)) := by
    intro p
    by_cases hp' : p < np
    · obtain ⟨v, v1, v2, v3⟩ := c2 p hp'
      rw [if_pos hp'] at v1
      obtain ⟨q, hq⟩ := mpiK2_spec (V p) hf hP (hp p hp').atoms (hp p hp').list (hil p hp') (hin p hp') ((hq1 p hp').2.1.set v)
        (H := feat f sph (periodic A0 L0 rc mt) (bondVecs A0 L0 rc) L0 (κ p)) (by rw [ProcK.H1_set]; exact v2)
        (by rw [ProcK.H1_set]; exact fun j hj a ha k hk => v3 j (hall p hp' j hj) a ha k hk)
      rw [← v1] at hq
      exact ⟨q, fun _ => hq⟩
    · exact ⟨st p, fun h => absurd h hp'⟩
  choose q2 hq2 using p2
  have e2 := eachProc_eq (fun p hp' => (hq2 p hp').1)
  -- reverse communication
  obtain ⟨st3, r1, r2⟩ := reverseCommK_spec (V := V) (P := P) (st := fun p => if p < np then q2 p else st2 p)
    (a := fun p j q => H1adj (netOf f) (confOf f sph (locSys (As p) (Ls p) rc mt) (locVecs (As p) (Ls p) rc)) (Ls p).inum
      (feat f sph (periodic A0 L0 rc mt) (bondVecs A0 L0 rc) L0 (κ p)) (roGrad f) j (q / (netOf f).C) (q % (netOf f).C)) hpl
    (fun p hp' => by rw [if_pos hp']; exact (hq2 p hp').2.2.1)
    (fun p hp' => by
      rw [if_pos hp']
      refine (hq2 p hp').2.2.2.congr (fun j _ a _ k hk => ?_)
      rw [hP.wok.C] at hk ⊢
      rw [flat_div hk, flat_mod hk])
  -- third phase
  have p3 : ∀ p, ∃ q, p < np → mpiK3 (V p) P fl (Ls p) (st3 p) = some q ∧ StOkK f P q.s ∧ q.own = none ∧
      q.t = { mpiOut f sph dsph rc mt fl (As p) (Ls p)
          (feat f sph (periodic A0 L0 rc mt) (bondVecs A0 L0 rc) L0 (κ p)) (mpiAdj f sph rc mt As Ls κ ms A0 L0 p) (M p) (st p).t with
          eatom := if fl.eAtom then tab (st p).t.eatom.length (fun i => if i < (Ls p).inum then
            nth (st p).t.eatom i + nodeE (netOf f) (confOf f sph (locSys (As p) (Ls p) rc mt) (locVecs (As p) (Ls p) rc))
              (feat f sph (periodic A0 L0 rc mt) (bondVecs A0 L0 rc) L0 (κ p)) i else nth (st p).t.eatom i) else (st p).t.eatom } := by
    intro p
    by_cases hp' : p < np
    · obtain ⟨v, v1, v2, v3⟩ := r2 p hp'
      rw [if_pos hp'] at v1
      obtain ⟨q, hq⟩ := mpiK3_spec (V p) hf hP (hp p hp').atoms (hp p hp').list (hil p hp')
        ((hq2 p hp').2.1.set (v2.mono (Nat.zero_le _)) hP) (Ha := mpiAdj f sph rc mt As Ls κ ms A0 L0 p)
        (v3.congr (fun j _ a _ k _ => by unfold mpiAdj; rw [hP.wok.C])) hv (hM p hp').2 (hM p hp').1 (hm p hp') (hea p hp')
      rw [← v1] at hq
      exact ⟨q, fun _ => hq⟩
    · exact ⟨st p, fun h => absurd h hp'⟩
  choose q3 hq3 using p3
  have e3 := eachProc_eq (fun p hp' => (hq3 p hp').1)
  refine ⟨_, (bind_of_some e1 _).trans <| (bind_of_some c1 _).trans <| (bind_of_some e2 _).trans <| (bind_of_some r1 _).trans e3, fun p hp' => ?_⟩
  dsimp only
  rw [if_pos hp']
  exact (hq3 p hp').2

end all

end Verif.Kokkos.Pair
