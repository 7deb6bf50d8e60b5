import Verif.Props.Kokkos
import Verif.Lemmas.Kokkos.CommHost

/-!
# Independence of the schedule (C48) and communication functions (C63) of the Kokkos code
-/

namespace Verif.Props
open Verif.MACE Verif.Spec Verif.Par Verif.Par.Prog

variable {f : File} {ne : ℕ} {sph : ℝ → ℝ → ℝ → ℕ → ℝ} {dsph : ℝ → ℝ → ℝ → ℕ → ℕ → ℝ}
  {srt : List (List (List ℕ)) → List (List (List ℕ))} {junk : ℕ → ℕ → ℝ}

/-! ## Schedules -/

/-- C48, semantics: a program without data races has the same outcome in every interleaving of its threads, and running the threads
one after the other is one of them. -/
theorem C48_race_free {ι K : Type} [DecidableEq ι] [AddCommMonoid K] {p : Prog ι K} (h : RaceFree p) (m : Bufs ι K)
    (o : Option (List K × Bufs ι K)) : Outcome p m o ↔ o = run p m :=
  ⟨fun ho => outcome_unique h ho, fun ho => ho ▸ run_outcome p m⟩

/-- C48, semantics: an environment can choose any interleaving of a launch. -/
theorem C48_every_interleaving {ι : Type} [DecidableEq ι] {p : Prog ι ℝ} {m : Bufs ι ℝ} {o : Option (List ℝ × Bufs ι ℝ)} (h : Outcome p m o) :
    ∃ V : Kokkos.Env ℝ, V.L.go p m = o := by
  obtain ⟨L, hL⟩ := Launcher.adequate h
  exact ⟨{ Kokkos.Env.simple ℝ with L := L }, hL⟩

/-- The value of a sum reduction does not depend on the order in which the contributions are joined. -/
theorem C48_reduction {K : Type} [AddCommMonoid K] (c : ℕ) {vs ws : List (List K)} (h : vs.Perm ws) : red c vs = red c ws :=
  (h.map _).sum_eq

/-- C48: a call gives the same energies and forces in every environment (interleavings of the threads of all its kernels, division of
the scans into blocks, contents of uninitialised memory). -/
theorem C48_schedule_independent (hf : FileOk f) (hk : FileOkK f ne) (hs : Poly.SortFn srt) :
    ∃ Q, Kokkos.load srt sph dsph junk ne f = some (Q, Kokkos.State.init ℝ) ∧
      ∀ T X, SysOk f T → Inside f T X → ∀ t, HistK f Q t → ∃ E F : List ℝ, E.length = T.N ∧ F.length = 3 * T.E ∧
        ∀ V : Kokkos.Env ℝ, ∃ t', Kokkos.compute V Q f.zbl (T.graph X) t = some t' ∧
          ZeroPadded t'.energies E ∧ ZeroPadded t'.forces F := by
  obtain ⟨Q, h1, h2⟩ := C51_grow_only_buffers (sph := sph) (dsph := dsph) (junk := junk) hf hk hs
  refine ⟨Q, h1, fun T X hT hX t ht => ?_⟩
  obtain ⟨E, F, l1, l2, h3⟩ := h2 T X hT hX
  refine ⟨E, F, l1, l2, fun V => ?_⟩
  obtain ⟨t', e, -, z1, z2, -⟩ := h3 t ht V
  exact ⟨t', e, z1, z2⟩

/-- C48, edge numbering: `first_neigh(i)` is the number of edges of the nodes before `i`, for every division of the scan into blocks. -/
theorem C48_first_neigh (V : Kokkos.Env ℝ) (nn : List ℕ) (N : ℕ) (h : N ≤ nn.length) :
    ∃ fn, Kokkos.firstNeigh V nn N = some fn ∧ fn.length = N ∧ ∀ i < N, fn[i]? = some (nn.take i).sum := by
  refine ⟨_, Kokkos.firstNeigh_spec V h, by simp [tab], fun i hi => ?_⟩
  rw [getElem?_tab_lt hi]
  rfl

/-- C48, edge numbering: `i_list` names the node of every edge of the sequential numbering, in every interleaving. -/
theorem C48_i_list (V : Kokkos.Env ℝ) (nn : List ℕ) (N Ex : ℕ) (h : N ≤ nn.length) (hE : (nn.take N).sum ≤ Ex) :
    ∃ il, Kokkos.iList V nn N Ex = some il ∧ ∀ i < N, ∀ j < nn.getD i 0, il.get [(nn.take i).sum + j] = some i := by
  obtain ⟨il, h1, h2, -⟩ := Kokkos.iList_spec V (nn := nn) (N := N) (Ex := Ex) (n := fun i => nn.getD i 0) (fun i hi => by
    rw [List.getD_eq_getElem?_getD, List.getElem?_eq_getElem (by omega)]; rfl) hE
  exact ⟨il, h1, h2⟩

example : (2 : ℕ) ≤ [3, 1].length ∧ ([3, 1].take 2).sum ≤ 4 := by decide

/-- Without atomicity the result depends on the interleaving: of two threads that add 1 to the same entry, both orders of
reading and writing are possible, and one addition can be lost. -/
theorem C48_lost_update : ∃ o1 o2 : Option (List ℝ × Bufs Unit ℝ), o1 ≠ o2 ∧
    Outcome (parFor 2 (fun _ => plus (fun _ => [1]) () [0] (1 : ℝ))) (fun _ => [0]) o1 ∧
    Outcome (parFor 2 (fun _ => plus (fun _ => [1]) () [0] (1 : ℝ))) (fun _ => [0]) o2 := by
  have hb : plus (fun _ : Unit => [1]) () [0] (1 : ℝ) = .rd () 0 (fun x => .wr () 0 (x + 1) (.ret [])) := rfl
  let m : ℝ → Bufs Unit ℝ := fun x _ => [x]
  have hput : ∀ x y, putAt () 0 y (m x) = some (m y) := by
    intro x y
    unfold putAt modAt
    simp only [m, List.getElem?_cons_zero]
    congr 1
  let t0 : Prog Unit ℝ := .rd () 0 (fun x => .wr () 0 (x + 1) (.ret []))
  let k : List (List ℝ) → Prog Unit ℝ := fun _ => .ret []
  have hrd : ∀ (g : ℕ → Prog Unit ℝ) i x, i < 2 → g i = t0 →
      Step (.par 2 g k, m x) (.par 2 (Function.update g i (.wr () 0 (x + 1) (.ret []))) k, m x) := by
    intro g i x hi hg
    refine ⟨.rd () 0 x, .inner hi (by rw [hg]; exact Trans.rd _ _ _ _), ?_⟩
    simp [Act.exec, m]
  have hwr : ∀ (g : ℕ → Prog Unit ℝ) i x y, i < 2 → g i = .wr () 0 y (.ret []) →
      Step (.par 2 g k, m x) (.par 2 (Function.update g i (.ret [])) k, m y) := by
    intro g i x y hi hg
    exact ⟨.wr () 0 y, .inner hi (by rw [hg]; exact Trans.wr _ _ _ _), hput x y⟩
  have hjoin : ∀ (g : ℕ → Prog Unit ℝ) x, (∀ i < 2, g i = .ret []) → Step (.par 2 g k, m x) (.ret [], m x) := by
    intro g x hg
    exact ⟨.tau, .join (fun _ => []) hg, rfl⟩
  have two : ∀ i, i < 2 → i = 0 ∨ i = 1 := fun i hi => by omega
  refine ⟨some ([], m 2), some ([], m 1), ?_, ?_, ?_⟩
  · intro h
    have := congrArg (fun o : Option (List ℝ × Bufs Unit ℝ) => o.map (fun q => q.2 ())) h
    simp [m] at this
  · refine .done ?_
    rw [show (fun _ : Unit => ([0] : List ℝ)) = m 0 from rfl, show parFor 2 (fun _ => plus (fun _ => [1]) () [0] (1 : ℝ)) = .par 2 (fun _ => t0) k from rfl]
    refine .head (hrd _ 0 0 (by omega) rfl) (.head (hwr _ 0 0 1 (by omega) (by simp)) (.head (hrd _ 1 1 (by omega) (by simp [t0]))
      (.head (hwr _ 1 1 2 (by omega) (by simp; norm_num)) (.single (hjoin _ _ ?_)))))
    intro i hi
    rcases two i hi with rfl | rfl <;> simp
  · refine .done ?_
    rw [show (fun _ : Unit => ([0] : List ℝ)) = m 0 from rfl, show parFor 2 (fun _ => plus (fun _ => [1]) () [0] (1 : ℝ)) = .par 2 (fun _ => t0) k from rfl]
    refine .head (hrd _ 0 0 (by omega) rfl) (.head (hrd _ 1 0 (by omega) (by simp [t0])) (.head (hwr _ 0 0 1 (by omega) (by simp))
      (.head (hwr _ 1 1 1 (by omega) (by simp)) (.single (hjoin _ _ ?_)))))
    intro i hi
    rcases two i hi with rfl | rfl <;> simp

/-! ## C63: communication -/

section comm
open Kokkos
variable {LM C n first M M' m m' : ℕ} {list : List ℕ}

/-- C63, ghost rows receive the rows of the sent atoms.  `V`, `W`: environments of the sender and the receiver; `rb`: the
received buffer, equal to the sent one on the message. -/
theorem C63_forward (V W : Kokkos.Env ℝ) {H1 buf : View ℝ} (hH : H1.Ok) (heH : H1.ext = [M, LM, C]) (hb : buf.Ok) (heb : buf.ext = [m])
    (hm : n * LM * C ≤ m) (hn : n ≤ list.length) (hl : ∀ i ∈ list, i < M) :
    ∃ b, packForward V LM C n list H1 buf = some (n * LM * C, b) ∧ b.Ok ∧ b.ext = [m] ∧
      ∀ rb G : View ℝ, (∀ p < n * LM * C, rb.get [p] = b.get [p]) → G.Ok → G.ext = [M', LM, C] → first + n ≤ M' →
        ∃ G', unpackForward W LM C n first rb G = some G' ∧ G'.Ok ∧ G'.ext = [M', LM, C] ∧
          (∀ ii < n, ∀ a < LM, ∀ k < C, G'.get [first + ii, a, k] = H1.get [nthN list ii, a, k]) ∧
          ∀ i a k, (i < first ∨ first + n ≤ i) → G'.get [i, a, k] = G.get [i, a, k] := by
  have hl' : ∀ ii < n, list[ii]? = some (nthN list ii) := fun ii hi => by
    unfold nthN
    rw [List.getElem?_eq_getElem (by omega)]; rfl
  have hlt : ∀ ii < n, nthN list ii < M := fun ii hi => hl _ (List.mem_of_getElem? (hl' ii hi))
  have hget : ∀ i < M, ∀ a < LM, ∀ k < C, H1.get [i, a, k] = some ((H1.get [i, a, k]).getD 0) := fun i hi a ha k hk => by
    obtain ⟨x, hx⟩ := View.exists_get hH (by rw [heH]; exact flat_three hi ha hk)
    rw [hx]; rfl
  obtain ⟨b, h1, h2, h3, h4⟩ := packForward_spec V (H := fun i a k => (H1.get [i, a, k]).getD 0) hl'
    (fun ii hi a ha k hk => hget _ (hlt ii hi) a ha k hk) hb heb hm
  refine ⟨b, h1, h2, h3, fun rb G hrb hG heG hf => ?_⟩
  obtain ⟨G', g1, g2, g3, g4, g5⟩ := unpackForward_spec W (buf := rb) (H1 := G) (first := first)
    (x := fun ii a k => (H1.get [nthN list ii, a, k]).getD 0)
    (fun ii hi a ha k hk => by rw [hrb _ (by rw [msg_index]; exact flat3_lt hi ha hk)]; exact h4 ii hi a ha k hk)
    (fun ii hi a ha k hk => View.exists_get hG (by rw [heG]; exact flat_three (by omega) ha hk))
  refine ⟨G', g1, g3 hG, g2.trans heG, fun ii hi a ha k hk => ?_, fun i a k hi => g5 _ ?_⟩
  · rw [g4 ii hi a ha k hk, ← hget _ (hlt ii hi) a ha k hk]
  · intro ii hii a' _ k' _ e
    simp only [List.cons.injEq, and_true] at e
    omega

/-- C63, the rows of the ghost atoms are added to the rows of the atoms they are copies of, also when several threads add to
the same row. -/
theorem C63_reverse (V W : Kokkos.Env ℝ) {Ha buf : View ℝ} (hH : Ha.Ok) (heH : Ha.ext = [M, LM, C]) (hb : buf.Ok) (heb : buf.ext = [m])
    (hm : n * LM * C ≤ m) (hf : first + n ≤ M) :
    ∃ b, packReverse V LM C n first Ha buf = some (n * LM * C, b) ∧ b.Ok ∧ b.ext = [m] ∧
      ∀ rb G : View ℝ, (∀ p < n * LM * C, rb.get [p] = b.get [p]) → G.Ok → G.ext = [M', LM, C] → n ≤ list.length → (∀ i ∈ list, i < M') →
        ∃ G', unpackReverse W LM C n list rb G = some G' ∧ G'.Ok ∧ G'.ext = [M', LM, C] ∧
          ∀ i < M', ∀ a < LM, ∀ k < C, (G'.get [i, a, k]).getD 0 = (G.get [i, a, k]).getD 0 +
            ∑ ii ∈ Finset.range n, if nthN list ii = i then (Ha.get [first + ii, a, k]).getD 0 else 0 := by
  have hget : ∀ i < M, ∀ a < LM, ∀ k < C, Ha.get [i, a, k] = some ((Ha.get [i, a, k]).getD 0) := fun i hi a ha k hk => by
    obtain ⟨x, hx⟩ := View.exists_get hH (by rw [heH]; exact flat_three hi ha hk)
    rw [hx]; rfl
  obtain ⟨b, h1, h2, h3, h4⟩ := packReverse_spec V (H := fun i a k => (Ha.get [i, a, k]).getD 0) (first := first)
    (fun ii hi a ha k hk => hget _ (by omega) a ha k hk) hb heb hm
  refine ⟨b, h1, h2, h3, fun rb G hrb hG heG hn hl => ?_⟩
  have hl' : ∀ ii < n, list[ii]? = some (nthN list ii) := fun ii hi => by
    unfold nthN
    rw [List.getElem?_eq_getElem (by omega)]; rfl
  obtain ⟨G', g1, g2, g3, g4, -⟩ := unpackReverse_spec W (buf := rb) (Ha := G) (x := fun ii a k => (Ha.get [first + ii, a, k]).getD 0)
    (H := fun i a k => (G.get [i, a, k]).getD 0) (NH := M') hl' (fun ii hi => hl _ (List.mem_of_getElem? (hl' ii hi)))
    (fun ii hi a ha k hk => by rw [hrb _ (by rw [msg_index]; exact flat3_lt hi ha hk)]; exact h4 ii hi a ha k hk)
    (fun i hi a ha k hk => by
      obtain ⟨x, hx⟩ := View.exists_get hG (by rw [heG]; exact flat_three hi ha hk)
      dsimp only
      rw [hx]; rfl)
  refine ⟨G', g1, g3 hG, g2.trans heG, fun i hi a ha k hk => ?_⟩
  rw [g4 i hi a ha k hk]
  rfl

/-- Three atoms, two of them sent (one twice). -/
example : ∃ H1 buf : View ℝ, H1.Ok ∧ H1.ext = [3, 1, 2] ∧ buf.Ok ∧ buf.ext = [6] ∧ 3 * 1 * 2 ≤ 6 ∧ 3 ≤ [2, 0, 2].length ∧
    ∀ i ∈ [2, 0, 2], i < 3 :=
  ⟨⟨[3, 1, 2], [1, 2, 3, 4, 5, 6]⟩, ⟨[6], [0, 0, 0, 0, 0, 0]⟩, rfl, rfl, rfl, rfl, by decide, by decide, by decide⟩

/-- C63, host variants: packing, and unpacking when the views are in memory that the host can access, are the functions of the CPU pair
style on rows of `num_LM * num_channels` entries. -/
theorem C63_host (junk : ℕ → ℝ) {H buf : List ℝ} (hH : H.length = M * LM * C) :
    packForwardHost LM C n list ⟨[M, LM, C], H⟩ buf = Lammps.packForward (LM * C) n list H buf ∧
    packReverseHost LM C n first ⟨[M, LM, C], H⟩ buf = Lammps.packReverse (LM * C) n first H buf ∧
    unpackForwardHost true junk LM C n first buf ⟨[M, LM, C], H⟩ =
      (Lammps.unpackForward (LM * C) n first buf H).map (View.mk [M, LM, C]) ∧
    unpackReverseHost true junk LM C n list buf ⟨[M, LM, C], H⟩ =
      (Lammps.unpackReverse (LM * C) n list buf H).map (View.mk [M, LM, C]) :=
  ⟨packForwardHost_eq hH, packReverseHost_eq hH, unpackForwardHost_eq junk hH, unpackReverseHost_eq junk hH⟩

example : ([3, 4, 5, 6] : List ℝ).length = 2 * 1 * 2 := rfl

/-- C63 fails for the host variants when the host cannot access the memory of the views: the mirror is not filled before the unpacking, so
every entry outside the message is overwritten with whatever the mirror contained, and contributions are added to that. -/
theorem C63_host_separate : (∀ x : ℝ, unpackForwardHost false (fun _ => x) 1 1 1 1 [5] ⟨[2, 1, 1], [3, 4]⟩ = some ⟨[2, 1, 1], [x, 5]⟩) ∧
    ∀ x : ℝ, unpackReverseHost false (fun _ => x) 1 1 1 [0] [5] ⟨[2, 1, 1], [3, 4]⟩ = some ⟨[2, 1, 1], [x + 5, x]⟩ :=
  ⟨fun _ => rfl, fun _ => rfl⟩

/-- The same messages with shared memory. -/
example : unpackForwardHost true (fun _ => (7 : ℝ)) 1 1 1 1 [5] ⟨[2, 1, 1], [3, 4]⟩ = some ⟨[2, 1, 1], [3, 5]⟩ ∧
    unpackReverseHost true (fun _ => (7 : ℝ)) 1 1 1 [0] [5] ⟨[2, 1, 1], [3, 4]⟩ = some ⟨[2, 1, 1], [3 + 5, 4]⟩ :=
  ⟨rfl, rfl⟩

end comm

end Verif.Props
