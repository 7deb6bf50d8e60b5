import Verif.Lemmas.Kokkos.Comm
import Verif.Lemmas.Kokkos.Host
import Verif.Lemmas.Lammps.CommFlat

/-! # Host variants of the communication functions: the loops of the CPU pair style on the contiguous data of the view -/

namespace Verif.Kokkos
open Verif.MACE

/-- A loop on a view whose body acts on the data. -/
theorem loop_data {K : Type} {n : ℕ} {E : List ℕ} {B : ℕ → View K → Option (View K)} {b : ℕ → List K → Option (List K)} {L : ℕ}
    (h : ∀ i < n, ∀ s : List K, s.length = L → B i ⟨E, s⟩ = (b i s).map (View.mk E))
    (hl : ∀ i < n, ∀ s s' : List K, s.length = L → b i s = some s' → s'.length = L) {s : List K} (hs : s.length = L) :
    loop n B ⟨E, s⟩ = (loop n b s).map (View.mk E) ∧ ∀ s', loop n b s = some s' → s'.length = L := by
  induction n with
  | zero => exact ⟨rfl, fun s' e => by rw [← Option.some.inj e]; exact hs⟩
  | succ n ih =>
    obtain ⟨h1, h2⟩ := ih (fun i hi => h i (by omega)) (fun i hi => hl i (by omega))
    rw [loop_succ, loop_succ, h1]
    cases e : loop n b s with
    | none => simp
    | some t =>
      have ht := h2 t e
      simp only [Option.map_some, Option.bind_some]
      exact ⟨h n (by omega) t ht, fun s' e' => hl n (by omega) t s' ht e'⟩

theorem loop_len {K : Type} {n L : ℕ} {b : ℕ → List K → Option (List K)} (hl : ∀ i < n, ∀ s s' : List K, b i s = some s' → s'.length = s.length)
    {s s' : List K} (hs : s.length = L) (e : loop n b s = some s') : s'.length = L := by
  induction n generalizing s' with
  | zero => rw [← Option.some.inj e]; exact hs
  | succ n ih =>
    rw [loop_succ] at e
    cases h : loop n b s with
    | none => rw [h] at e; cases e
    | some t =>
      rw [h, Option.bind_some] at e
      rw [hl n (by omega) t s' e]
      exact ih (fun i hi => hl i (by omega)) h

variable {K : Type} {M LM C : ℕ}

theorem flat_rows {i a k : ℕ} (ha : a < LM) (hk : k < C) :
    flat [M, LM, C] [i, a, k] 0 = if i < M then some (i * (LM * C) + (a * C + k)) else none := by
  simp only [flat]
  rw [if_pos ha, if_pos hk]
  split_ifs
  · congr 1; ring
  · rfl

theorem row_bound {i a k : ℕ} (hi : ¬ i < M) : M * LM * C ≤ i * (LM * C) + (a * C + k) := by
  have := Nat.mul_le_mul_right (LM * C) (show M ≤ i by omega)
  rw [← Nat.mul_assoc] at this
  omega

theorem set_rows {s : List K} (hs : s.length = M * LM * C) {i a k : ℕ} (ha : a < LM) (hk : k < C) (x : K) :
    (View.mk [M, LM, C] s).set [i, a, k] x = (wr s (i * (LM * C) + (a * C + k)) x).map (View.mk [M, LM, C]) := by
  unfold View.set
  rw [flat_rows ha hk]
  split_ifs with hi
  · rfl
  · rw [show wr s (i * (LM * C) + (a * C + k)) x = none from if_neg (by have := row_bound (LM := LM) (C := C) (a := a) (k := k) hi; omega)]
    rfl

theorem get_rows {s : List K} (hs : s.length = M * LM * C) {i a k : ℕ} (ha : a < LM) (hk : k < C) :
    (View.mk [M, LM, C] s).get [i, a, k] = s[i * (LM * C) + (a * C + k)]? := by
  unfold View.get
  rw [flat_rows ha hk]
  split_ifs with hi
  · rfl
  · rw [List.getElem?_eq_none (by have := row_bound (LM := LM) (C := C) (a := a) (k := k) hi; omega)]
    rfl

theorem wr_length {s s' : List K} {i : ℕ} {x : K} (h : wr s i x = some s') : s'.length = s.length := by
  unfold wr at h
  split_ifs at h
  rw [← Option.some.inj h]; simp

theorem row_split {C p : ℕ} (hC : 0 < C) : p / C * C + p % C = p := by rw [Nat.mul_comm]; exact Nat.div_add_mod p C

theorem col_lt {LM C p : ℕ} (hp : p < LM * C) : p / C < LM ∧ p % C < C ∧ p / C * C + p % C = p := by
  have hC : 0 < C := by
    rcases Nat.eq_zero_or_pos C with rfl | h
    · simp at hp
    · exact h
  exact ⟨Nat.div_lt_of_lt_mul (by rw [Nat.mul_comm]; exact hp), Nat.mod_lt _ hC, row_split hC⟩

variable {n first : ℕ} {list : List ℕ}

theorem packForwardHost_eq {s buf : List ℝ} (hs : s.length = M * LM * C) :
    packForwardHost LM C n list ⟨[M, LM, C], s⟩ buf = Lammps.packForward (LM * C) n list s buf := by
  unfold packForwardHost Lammps.packForward
  have : ∀ buf : List ℝ, loop n (fun ii buf => (list[ii]?).bind (fun i => loop LM (fun a => loop C (fun k buf =>
      ((View.mk [M, LM, C] s).get [i, a, k]).bind (fun x => wr buf (ii * LM * C + a * C + k) x))) buf)) buf =
      loop n (fun ii buf => (list[ii]?).bind (fun i => loop (LM * C) (fun k buf => (s[i * (LM * C) + k]?).bind (fun v =>
        wr buf (ii * (LM * C) + k) v)) buf)) buf := by
    intro buf
    refine loop_congr (fun ii _ b => ?_) buf
    cases list[ii]? with
    | none => rfl
    | some i =>
      simp only [Option.bind_some]
      rw [loop_mul]
      refine loop_congr (fun p hp b => ?_) b
      obtain ⟨h1, h2, h3⟩ := col_lt hp
      rw [get_rows hs h1 h2, h3, show ii * LM * C + p / C * C + p % C = ii * (LM * C) + p by rw [Nat.add_assoc, h3, Nat.mul_assoc]]
  exact (congrArg (fun o => Option.bind o _) (this buf)).trans (by rw [Nat.mul_assoc]; rfl)

theorem packReverseHost_eq {s buf : List ℝ} (hs : s.length = M * LM * C) :
    packReverseHost LM C n first ⟨[M, LM, C], s⟩ buf = Lammps.packReverse (LM * C) n first s buf := by
  unfold packReverseHost Lammps.packReverse
  have : ∀ buf : List ℝ, loop n (fun i => loop LM (fun a => loop C (fun k buf =>
      ((View.mk [M, LM, C] s).get [first + i, a, k]).bind (fun x => wr buf (i * LM * C + a * C + k) x)))) buf =
      loop n (fun i => loop (LM * C) (fun k buf => (s[(first + i) * (LM * C) + k]?).bind (fun v =>
        wr buf (i * (LM * C) + k) v))) buf := by
    intro buf
    refine loop_congr (fun ii _ b => ?_) buf
    rw [loop_mul]
    refine loop_congr (fun p hp b => ?_) b
    obtain ⟨h1, h2, h3⟩ := col_lt hp
    rw [get_rows hs h1 h2, h3, show ii * LM * C + p / C * C + p % C = ii * (LM * C) + p by rw [Nat.add_assoc, h3, Nat.mul_assoc]]
  exact (congrArg (fun o => Option.bind o _) (this buf)).trans (by rw [Nat.mul_assoc]; rfl)

theorem unpackForwardHost_loop {s buf : List ℝ} (hs : s.length = M * LM * C) :
    loop n (fun i => loop LM (fun a => loop C (fun k (h : View ℝ) => (buf[i * LM * C + a * C + k]?).bind (fun x =>
      h.set [first + i, a, k] x)))) ⟨[M, LM, C], s⟩ = (Lammps.unpackForward (LM * C) n first buf s).map (View.mk [M, LM, C]) := by
  unfold Lammps.unpackForward
  refine (loop_data (L := M * LM * C) (fun i _ s hs => ?_) (fun i _ s s' hs e => ?_) hs).1
  · rw [loop_mul]
    refine (loop_data (L := M * LM * C) (fun p hp s hs => ?_) (fun p hp s s' hs e => ?_) hs).1
    · obtain ⟨h1, h2, h3⟩ := col_lt hp
      rw [show i * LM * C + p / C * C + p % C = i * (LM * C) + p by rw [Nat.add_assoc, h3, Nat.mul_assoc]]
      cases buf[i * (LM * C) + p]? with
      | none => rfl
      | some x => exact (set_rows hs h1 h2 x).trans (by rw [h3]; rfl)
    · cases h : buf[i * (LM * C) + p]? with
      | none => rw [h] at e; cases e
      | some x => rw [h] at e; exact (wr_length e).trans hs
  · refine loop_len (fun p _ s s' e => ?_) hs e
    cases h : buf[i * (LM * C) + p]? with
    | none => rw [h] at e; cases e
    | some x => rw [h] at e; exact wr_length e

theorem ad_length {s s' : List ℝ} {i : ℕ} {x : ℝ} (h : ad s i x = some s') : s'.length = s.length := by
  unfold ad md at h
  split at h
  · cases h
  · rw [← Option.some.inj h]; simp

theorem upd_rows {s : List ℝ} (hs : s.length = M * LM * C) {i a k : ℕ} (ha : a < LM) (hk : k < C) (x : ℝ) :
    ((View.mk [M, LM, C] s).get [i, a, k]).bind (fun y => (View.mk [M, LM, C] s).set [i, a, k] (y + x)) =
      (ad s (i * (LM * C) + (a * C + k)) x).map (View.mk [M, LM, C]) := by
  rw [get_rows hs ha hk]
  unfold ad md
  cases h : s[i * (LM * C) + (a * C + k)]? with
  | none => rfl
  | some y =>
    have hlt : i * (LM * C) + (a * C + k) < s.length := by
      by_contra hc
      rw [List.getElem?_eq_none (by omega)] at h
      cases h
    rw [Option.bind_some, set_rows hs ha hk, wr_eq _ hlt]

theorem unpackReverseHost_loop {s buf : List ℝ} (hs : s.length = M * LM * C) :
    loop n (fun ii (h : View ℝ) => (list[ii]?).bind (fun i => loop LM (fun a => loop C (fun k (h : View ℝ) =>
      (buf[ii * LM * C + a * C + k]?).bind (fun x => (h.get [i, a, k]).bind (fun y => h.set [i, a, k] (y + x))))) h))
      ⟨[M, LM, C], s⟩ = (Lammps.unpackReverse (LM * C) n list buf s).map (View.mk [M, LM, C]) := by
  unfold Lammps.unpackReverse
  have key : ∀ ii i s s', loop (LM * C) (fun k (H : List ℝ) => (buf[ii * (LM * C) + k]?).bind (fun v => ad H (i * (LM * C) + k) v)) s = some s' →
      s'.length = s.length := by
    intro ii i s s' e
    refine loop_len (fun p _ s s' e => ?_) rfl e
    cases h : buf[ii * (LM * C) + p]? with
    | none => rw [h] at e; cases e
    | some x => rw [h] at e; exact ad_length e
  refine (loop_data (L := M * LM * C) (fun ii _ s hs => ?_) (fun ii _ s s' hs e => ?_) hs).1
  · cases list[ii]? with
    | none => rfl
    | some i =>
      simp only [Option.bind_some]
      rw [loop_mul]
      refine (loop_data (L := M * LM * C) (fun p hp s hs => ?_) (fun p hp s s' hs e => ?_) hs).1
      · obtain ⟨h1, h2, h3⟩ := col_lt hp
        rw [show ii * LM * C + p / C * C + p % C = ii * (LM * C) + p by rw [Nat.add_assoc, h3, Nat.mul_assoc]]
        cases buf[ii * (LM * C) + p]? with
        | none => rfl
        | some x => exact (upd_rows hs h1 h2 x).trans (by rw [h3]; rfl)
      · cases h : buf[ii * (LM * C) + p]? with
        | none => rw [h] at e; cases e
        | some x => rw [h] at e; exact (ad_length e).trans hs
  · cases h : list[ii]? with
    | none => rw [h] at e; cases e
    | some i =>
      rw [h] at e
      exact (key ii i s s' e).trans hs

theorem unpackForwardHost_eq (junk : ℕ → ℝ) {s buf : List ℝ} (hs : s.length = M * LM * C) :
    unpackForwardHost true junk LM C n first buf ⟨[M, LM, C], s⟩ =
      (Lammps.unpackForward (LM * C) n first buf s).map (View.mk [M, LM, C]) := unpackForwardHost_loop hs

theorem unpackReverseHost_eq (junk : ℕ → ℝ) {s buf : List ℝ} (hs : s.length = M * LM * C) :
    unpackReverseHost true junk LM C n list buf ⟨[M, LM, C], s⟩ =
      (Lammps.unpackReverse (LM * C) n list buf s).map (View.mk [M, LM, C]) := unpackReverseHost_loop hs

/-- With separate memories the unpacked rows are right and the rest of the view is lost. -/
theorem unpackForwardHost_separate (junk : ℕ → ℝ) {s buf : List ℝ} (hs : s.length = M * LM * C) :
    unpackForwardHost false junk LM C n first buf ⟨[M, LM, C], s⟩ =
      (Lammps.unpackForward (LM * C) n first buf (tab (M * LM * C) junk)).map (View.mk [M, LM, C]) := by
  have := unpackForwardHost_loop (M := M) (LM := LM) (C := C) (n := n) (first := first) (buf := buf) (s := tab (M * LM * C) junk) (by simp)
  rw [← this, ← hs]
  rfl

theorem unpackReverseHost_separate (junk : ℕ → ℝ) {s buf : List ℝ} (hs : s.length = M * LM * C) :
    unpackReverseHost false junk LM C n list buf ⟨[M, LM, C], s⟩ =
      (Lammps.unpackReverse (LM * C) n list buf (tab (M * LM * C) junk)).map (View.mk [M, LM, C]) := by
  have := unpackReverseHost_loop (M := M) (LM := LM) (C := C) (n := n) (list := list) (buf := buf) (s := tab (M * LM * C) junk) (by simp)
  rw [← this, ← hs]
  rfl

end Verif.Kokkos
