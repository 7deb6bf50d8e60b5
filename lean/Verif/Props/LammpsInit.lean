import Verif.Model.LammpsInit
import Verif.Props.Domain

/-! # Property theorems: initialisation of the pair style (C92) -/

namespace Verif.Props
open Verif.Lammps Verif.MACE Verif.Spec

theorem flag_row (v : ℤ) (i : ℕ) : ∀ (l : List ℕ) (flag : ℕ → ℕ → ℤ) (a b : ℕ),
    l.foldl (fun fl j => Function.update fl i (Function.update (fl i) j v)) flag a b = if a = i ∧ b ∈ l then v else flag a b
  | [], flag, a, b => by simp
  | j :: l, flag, a, b => by
    rw [List.foldl_cons, flag_row v i l]
    by_cases ha : a = i
    · subst ha
      by_cases hb : b = j
      · subst hb; simp
      · simp [hb]
    · simp [ha]

theorem flag_rows (v : ℤ) (n : ℕ) : ∀ (l : List ℕ) (flag : ℕ → ℕ → ℤ) (a b : ℕ),
    l.foldl (fun fl i => (List.range' i (n + 1 - i)).foldl (fun fl j => Function.update fl i (Function.update (fl i) j v)) fl) flag a b
      = if a ∈ l ∧ a ≤ b ∧ b ≤ n then v else flag a b
  | [], flag, a, b => by simp
  | i :: l, flag, a, b => by
    rw [List.foldl_cons, flag_rows v n l, flag_row]
    by_cases ha : a = i
    · subst ha
      have : b ∈ List.range' a (n + 1 - a) ↔ a ≤ b ∧ b ≤ n := by rw [List.mem_range'_1]; omega
      by_cases hb : a ≤ b ∧ b ≤ n <;> simp [this, hb]
    · simp [ha]

theorem flagLoop_eq (v : ℤ) (nt : ℕ) (flag : ℕ → ℕ → ℤ) (a b : ℕ) :
    flagLoop v nt flag a b = if 1 ≤ a ∧ a ≤ b ∧ b ≤ nt then v else flag a b := by
  unfold flagLoop
  rw [flag_rows]
  have : (a ∈ List.range' 1 nt ∧ a ≤ b ∧ b ≤ nt) ↔ (1 ≤ a ∧ a ≤ b ∧ b ≤ nt) := by rw [List.mem_range'_1]; omega
  simp only [this]

/-- C92, `init_one`: for every pair of types, an error before `pair_coeff` and the cutoff of the model afterwards (also after several
`pair_coeff`), whatever the memory contained. -/
theorem C92_init_one {K : Type} (rc : K) (nt : ℕ) (mem : ℕ → ℕ → ℤ) {i j : ℕ} (hi : 1 ≤ i) (hij : i ≤ j) (hj : j ≤ nt) :
    initOne rc (allocate nt mem) i j = none ∧ ∀ fl, initOne rc (coeffFlags nt mem fl) i j = some rc := by
  constructor
  · simp [initOne, allocate, flagLoop_eq, hi, hij, hj]
  · intro fl
    simp [initOne, coeffFlags, flagLoop_eq, hi, hij, hj]

/-- C92: for every mode that `settings` accepts, `init_style` succeeds exactly with an atom map and `newton on`; it requests a full list,
with ghosts exactly for `no_mpi_message_passing`; in the other modes LAMMPS' settings are not changed, in this one at most the communication
cutoff, and never if it is large enough. -/
theorem C92_requests (rnd : ℝ → ℤ) {nprocs : ℕ} {args : List String} {mode : String} (hmode : settings nprocs args = some mode) (rc : ℝ) (s : Lmp) :
    (initStyle rnd mode rc s ≠ none ↔ s.hasMap = true ∧ s.newton = true) ∧
    ∀ s' r, initStyle rnd mode rc s = some (s', r) → r.full = true ∧ (r.ghost = true ↔ mode = "no_mpi_message_passing") ∧
      (mode ≠ "no_mpi_message_passing" ∨ 2 * rc + s.skin ≤ s.commCutoff → s' = s) ∧
      s' = { s with ghostUser := s'.ghostUser } := by
  have hm : mode = "no_domain_decomposition" ∨ mode = "mpi_message_passing" ∨ mode = "no_mpi_message_passing" := by
    have : settings nprocs args ≠ none → ∀ m, settings nprocs args = some m →
        m = "no_domain_decomposition" ∨ m = "mpi_message_passing" ∨ m = "no_mpi_message_passing" := by
      intro _ m h
      unfold settings at h
      rcases args with _ | ⟨a, _ | ⟨b, l⟩⟩
      · by_cases hn : nprocs = 1 <;> simp [hn] at h <;> simp [← h]
      · simp only [List.length_cons, List.length_nil, List.getElem?_cons_zero] at h
        norm_num at h
        by_cases ha : a = "no_domain_decomposition" ∨ a = "mpi_message_passing" ∨ a = "no_mpi_message_passing"
        · rcases ha with rfl | rfl | rfl <;> simp at h <;> simp [h]
        · push Not at ha
          simp [ha] at h
      · simp at h
    exact this (by simp [hmode]) mode hmode
  have e1 : "no_mpi_message_passing" ≠ "no_domain_decomposition" := by decide
  have e2 : "no_mpi_message_passing" ≠ "mpi_message_passing" := by decide
  constructor
  · unfold initStyle
    cases s.hasMap <;> cases s.newton <;> simp
    split <;> simp
  · intro s' r h
    unfold initStyle at h
    by_cases h1 : s.hasMap = true <;> by_cases h2 : s.newton = true <;> simp only [h1, h2] at h <;> simp at h
    rcases hm with rfl | rfl | rfl
    · simp at h
      obtain ⟨rfl, rfl⟩ := h
      simp [e1.symm]
    · simp at h
      obtain ⟨rfl, rfl⟩ := h
      simp [e2.symm]
    · simp [e1, e2] at h
      obtain ⟨rfl, rfl⟩ := h
      refine ⟨rfl, by simp, ?_, ?_⟩
      · rintro (h | h)
        · exact absurd rfl h
        · rw [if_neg (not_lt.mpr h)]
      · split
        · simp only [h1, h2]
        · rfl

/-- C92, communication cutoff at the start of a run with `no_mpi_message_passing`: it is at least `2 rc + skin` up to half a unit of the sixth
decimal, and not smaller at all if `2 rc + skin` has no more than six decimals.  Missing: more decimals; a neighbour cutoff in force before
which was larger than the present one; see `C92_violated`. -/
theorem C92_cutoff_partial {rnd : ℝ → ℤ} (hrnd : ∀ y, |rnd y - y| ≤ 1 / 2) {rc cut : ℝ} {s s' : Lmp} {r : Request}
    (hold : s.neighMax ≤ cut + s.skin) (h : initRun rnd "no_mpi_message_passing" rc cut s = some (s', r)) :
    2 * rc + s'.skin - 1 / (2 * 10 ^ 6) ≤ s'.commCutoff ∧
    ((∃ n : ℤ, (2 * rc + s'.skin) * 10 ^ 6 = n) → 2 * rc + s'.skin ≤ s'.commCutoff) := by
  have e1 : "no_mpi_message_passing" ≠ "no_domain_decomposition" := by decide
  have e2 : "no_mpi_message_passing" ≠ "mpi_message_passing" := by decide
  unfold initRun initStyle at h
  by_cases h1 : s.hasMap = true <;> by_cases h2 : s.newton = true <;> simp only [h1, h2] at h <;> simp at h
  try simp [e1, e2] at h
  by_cases hc : s.commCutoff < 2 * rc + s.skin
  · rw [if_pos hc] at h
    obtain ⟨rfl, rfl⟩ := h
    simp only [Lmp.neighborInit, Lmp.commCutoff, sixDecimals]
    have hr := abs_le.mp (hrnd ((2 * rc + s.skin) * 10 ^ 6))
    constructor
    · refine le_max_of_le_left ?_
      rw [le_div_iff₀ (by norm_num)]
      norm_num
      linarith [hr.1]
    · rintro ⟨n, hn⟩
      refine le_max_of_le_left ?_
      rw [hn] at hr ⊢
      have : rnd (n : ℝ) = n := by
        have h3 : |rnd (n : ℝ) - n| < 1 := by
          have : ((|rnd (n : ℝ) - n| : ℤ) : ℝ) < ((1 : ℤ) : ℝ) := by
            push_cast
            exact (hrnd n).trans_lt (by norm_num)
          exact_mod_cast this
        have := Int.abs_lt_one_iff.mp h3
        omega
      rw [this, le_div_iff₀ (by norm_num), hn]
  · rw [if_neg hc] at h
    obtain ⟨rfl, rfl⟩ := h
    have : 2 * rc + s.skin ≤ (s.neighborInit cut).commCutoff := by
      refine (not_lt.mp hc).trans ?_
      simp only [Lmp.neighborInit, Lmp.commCutoff]
      exact max_le_max le_rfl hold
    exact ⟨by norm_num [Lmp.neighborInit] at this ⊢; linarith, fun _ => this⟩

/-- C92 with C91: if ghosts are exchanged up to the communication cutoff that this initialisation leaves, the division is valid for C44.
Missing: as for `C92_cutoff_partial`. -/
theorem C92_run_partial {ι : Type} [AddCommGroup ι] {rnd : ℝ → ℤ} (hrnd : ∀ y, |rnd y - y| ≤ 1 / 2) {rc cut : ℝ} {s s' : Lmp} {r : Request}
    (hold : s.neighMax ≤ cut + s.skin) (h : initRun rnd "no_mpi_message_passing" rc cut s = some (s', r))
    (hdec : ∃ n : ℤ, (2 * rc + s'.skin) * 10 ^ 6 = n)
    {M : Matter ι} {f : File} {mt : List ℕ} {np : ℕ} {A : ℕ → Atoms} {L : ℕ → NList}
    {id : ℕ → ℕ → ℕ} {sh : ℕ → ℕ → ι} {A0 : Atoms} {L0 : NList} {id0 : ℕ → ℕ} {sh0 : ℕ → ι}
    (hrc : 0 < rc) (hm : M.Moved s'.skin) (hd : Divided M np A id)
    (hp : ∀ p < np, ProcOk f mt (A p) (L p) (centres (L p) ++ halo (A p) (L p) rc))
    (hh : ∀ p < np, Holder M rc s'.skin (A p) (L p) (id p) (sh p) (centres (L p) ++ halo (A p) (L p) rc))
    (hc : ∀ p < np, Covers M s'.commCutoff (A p) (id p) (sh p)) (hw : Whole M rc s'.skin A0 L0 id0 sh0) (hl : ListOk A0 L0) :
    GhostParts f rc mt np A L id A0 L0 :=
  C91_no_mpi hrc hm hd hp hh hc ((C92_cutoff_partial hrnd hold h).2 hdec) hw hl

/-- Ghosts up to the communication cutoff `cut`, everything else as required, and still not a valid division. -/
def GhostsMissing (f : File) (rc skin cut : ℝ) : Prop :=
  ∃ (M : Matter Unit) (A : ℕ → Atoms) (L : ℕ → NList) (id : ℕ → ℕ → ℕ) (sh : ℕ → ℕ → Unit),
    M.Moved skin ∧ Divided M 2 A id ∧
    (∀ p < 2, ProcOk f [0] (A p) (L p) (centres (L p) ++ halo (A p) (L p) rc) ∧
      Holder M rc skin (A p) (L p) (id p) (sh p) (centres (L p) ++ halo (A p) (L p) rc) ∧ Covers M cut (A p) (id p) (sh p)) ∧
    Whole M rc skin (A 2) (L 2) (id 2) (sh 2) ∧ ListOk (A 2) (L 2) ∧ ¬ GhostParts f rc [0] 2 A L id (A 2) (L 2)

/-- C92 is violated: (1) in a first run with a cutoff of `5.0000001` and the skin 2, the cutoff is rounded down to 12; (2) with cutoff 5 after a
run with a pair style of cutoff 10, the check passes because of the previous neighbour cutoff, which is then reduced to 7.  In both cases a
ghost may lack a neighbour. -/
theorem C92_violated (f : File) (hf : 1 ≤ f.nT) {rnd : ℝ → ℤ} (hrnd : ∀ y, |rnd y - y| ≤ 1 / 2) :
    (∃ rc s' r, initRun rnd "no_mpi_message_passing" rc rc ⟨true, true, 0, 0, 2⟩ = some (s', r) ∧ rc = 5.0000001 ∧
      s'.commCutoff = 12 ∧ GhostsMissing f rc 2 s'.commCutoff) ∧
    (∃ s' r, initRun rnd "no_mpi_message_passing" 5 5 ⟨true, true, 0, 10 + 2, 2⟩ = some (s', r) ∧ s'.commCutoff = 7 ∧
      GhostsMissing f 5 2 s'.commCutoff) := by
  have e1 : "no_mpi_message_passing" ≠ "no_domain_decomposition" := by decide
  have e2 : "no_mpi_message_passing" ≠ "mpi_message_passing" := by decide
  constructor
  · refine ⟨5.0000001, _, _, by simp [initRun, initStyle, e1, e2]; exact ⟨rfl, rfl⟩, rfl, ?_⟩
    have hr : rnd ((2 * 5.0000001 + 2) * 10 ^ 6) = 12000000 := by
      have h := abs_le.mp (hrnd ((2 * 5.0000001 + 2) * 10 ^ 6))
      have a1 : ((11999999 : ℤ) : ℝ) < rnd ((2 * 5.0000001 + 2) * 10 ^ 6) := by
        push_cast
        have := h.1
        norm_num at this ⊢
        linarith
      have a2 : (rnd ((2 * 5.0000001 + 2) * 10 ^ 6) : ℝ) < ((12000001 : ℤ) : ℝ) := by
        push_cast
        have := h.2
        norm_num at this ⊢
        linarith
      have := Int.cast_lt.mp a1
      have := Int.cast_lt.mp a2
      omega
    have hlt : (Lmp.mk true true 0 0 2).commCutoff < 2 * 5.0000001 + 2 := by simp [Lmp.commCutoff]; norm_num
    have hcut : (Lmp.neighborInit 5.0000001 (if (Lmp.mk true true 0 0 2).commCutoff < 2 * 5.0000001 + 2 then
        { hasMap := true, newton := true, ghostUser := sixDecimals rnd (2 * 5.0000001 + 2), neighMax := 0, skin := 2 }
        else Lmp.mk true true 0 0 2)).commCutoff = 12 := by
      rw [if_pos hlt]
      simp only [Lmp.neighborInit, Lmp.commCutoff, sixDecimals, hr]
      norm_num
    rw [hcut]
    exact ⟨rfl, C91_two_cutoffs_needed f hf (by norm_num) (by norm_num) (by norm_num) (by norm_num)⟩
  · refine ⟨_, _, by simp [initRun, initStyle, e1, e2]; exact ⟨rfl, rfl⟩, ?_⟩
    have hlt : ¬ (Lmp.mk true true 0 (10 + 2) 2).commCutoff < 2 * 5 + 2 := by norm_num [Lmp.commCutoff]
    have hcut : (Lmp.neighborInit 5 (if (Lmp.mk true true 0 (10 + 2) 2).commCutoff < 2 * 5 + 2 then
        { hasMap := true, newton := true, ghostUser := sixDecimals rnd (2 * 5 + 2), neighMax := 10 + 2, skin := 2 }
        else Lmp.mk true true 0 (10 + 2) 2)).commCutoff = 7 := by
      rw [if_neg hlt]
      simp only [Lmp.neighborInit, Lmp.commCutoff]
      norm_num
    rw [hcut]
    exact ⟨rfl, C91_two_cutoffs_needed f hf (by norm_num) (by norm_num) (by norm_num) (by norm_num)⟩

/-- A first run with cutoff 5 and skin 2 meets the hypotheses of `C92_cutoff_partial`. -/
example : ∃ s' r, initRun round "no_mpi_message_passing" 5 5 ⟨true, true, 0, 0, 2⟩ = some (s', r) ∧ (0 : ℝ) ≤ 5 + 2 ∧
    ∃ n : ℤ, (2 * 5 + s'.skin) * 10 ^ 6 = n := by
  refine ⟨_, _, by simp [initRun, initStyle]; exact ⟨rfl, rfl⟩, by norm_num, 12000000, ?_⟩
  simp only [Lmp.neighborInit]
  split <;> norm_num

/-! ## C93 -/

/-- C93: after `pair_coeff` with a symbol for each of the `ntypes` types, every atom has a species of the model.  Missing: `coeff` does not
check the number of symbols, see `C93_violated`. -/
theorem C93_types_partial {Zs : List ℕ} {syms : List String} {mt : List ℕ} (h : coeff Zs syms = some mt) {ntypes : ℕ}
    (hn : syms.length = ntypes) (A : Atoms) {i t : ℕ} (ht : A.type[i]? = some t) (h1 : 1 ≤ t) (h2 : t ≤ ntypes) :
    ∃ k < Zs.length, maceType mt A i = some k := by
  obtain ⟨hl, hs⟩ := (C36_pair_coeff Zs syms).1 mt h
  have hlt : t - 1 < syms.length := by omega
  obtain ⟨Z, k, _, h3, h4, _⟩ := hs (t - 1) _ (List.getElem?_eq_getElem hlt)
  refine ⟨k, (List.getElem?_eq_some_iff.mp h4).1, ?_⟩
  have : t ≠ 0 := by omega
  simp [maceType, ht, this, h3]

/-- One atom, of type 2. -/
def secondType : Atoms := ⟨1, 0, [0, 0, 0], [2], [1], fun t => if t = 1 then some 0 else none⟩

def secondTypeList : NList := ⟨1, [0], [0], [[]]⟩

/-- C93 is violated: `pair_coeff * * model.json H` is accepted when there are two types, and `compute` then reads `mace_types` beyond its end;
whatever the model, the work arrays and the accumulators. -/
theorem C93_violated : coeff [1] ["H"] = some [0] ∧ ListOk secondType secondTypeList ∧ ∀ zbl P rc fl w s t,
    computeSingle zbl P rc [0] fl secondType secondTypeList w s t = none := by
  refine ⟨by decide +kernel, ⟨by decide, by decide, by decide, ?_⟩, fun zbl P rc fl w s t => ?_⟩
  · intro i hi
    have : i = 0 := by simpa [centres, secondTypeList] using hi
    subst this
    exact ⟨by decide, by decide, by decide, by decide, by decide⟩
  · have e : maceType [0] secondType 0 = none := rfl
    have hp : ∀ look w, populate secondType secondTypeList (rc * rc) [0] look w = none := by
      intro look w
      have hl : ∀ b : ℕ → ℕ × Work → Option (ℕ × Work), loop secondTypeList.inum b (0, w) = b 0 (0, w) := fun b => by
        change loop 1 b (0, w) = _
        simp [loop]
      have hi : secondTypeList.ilist[0]? = some 0 := rfl
      unfold populate
      rw [hl, hi]
      simp only [Option.bind_eq_bind, Option.bind_some, e]
      cases wr w.nodeI 0 0 <;> rfl
    have hb : buildSingle rc [0] secondType secondTypeList w = none := by
      unfold buildSingle
      cases countEdges secondType secondTypeList (rc * rc) with
      | none => rfl
      | some e =>
        cases iiFromI secondTypeList.inum secondTypeList.ilist with
        | none => rfl
        | some m => exact hp _ _
    simp [computeSingle, hb]

example : ∃ mt, coeff [1, 8] ["O", "H"] = some mt ∧ maceType mt secondType 0 = some 0 := ⟨[1, 0], by decide +kernel, rfl⟩

end Verif.Props
