import Verif.Lemmas.Json

/-! # Lemmas: the loaders use only what is written -/

namespace Verif.JsonModel
open Verif.MACE

theorem pushLoop_congr {α : Type} {n : ℕ} {g g' : ℕ → Option α} (h : ∀ i < n, g i = g' i) (o : List α) :
    pushLoop n g o = pushLoop n g' o :=
  loop_congr (fun i hi s => by rw [h i hi]) o

variable {f : File} {srt : List (List (List ℕ)) → List (List (List ℕ))} {sph : ℝ → ℝ → ℝ → ℕ → ℝ} {dsph : ℝ → ℝ → ℝ → ℕ → ℕ → ℝ}
  {junk : ℕ → ℕ → ℝ} {ne : ℕ}

theorem kept_M0w {a lm k : ℕ} (h1 : a < f.atomicNumbers.length) (h2 : lm < (f.Lmax + 1) * (f.Lmax + 1)) (h3 : k < f.numChannels) :
    (kept f).M0w a lm k = f.M0w a lm k := if_pos ⟨h1, h2, h3⟩

theorem kept_M0mon {lm : ℕ} (h2 : lm < (f.Lmax + 1) * (f.Lmax + 1)) : (kept f).M0mon lm = f.M0mon lm := if_pos h2

theorem kept_M1w {a k : ℕ} (h1 : a < f.atomicNumbers.length) (h3 : k < f.numChannels) :
    (kept f).M1w a k = f.M1w a k := if_pos ⟨h1, h3⟩

theorem bindEq {α β : Type} {x x' : Option α} {g g' : α → Option β} (h : x = x') (hg : ∀ a, g a = g' a) : x >>= g = x' >>= g' := by
  rw [h, funext hg]

theorem load_kept : MACE.load srt sph dsph (kept f) = MACE.load srt sph dsph f := by
  have hP0 : loop f.atomicNumbers.length (fun a => loop ((f.Lmax + 1) * (f.Lmax + 1)) (fun lm =>
      pushLoop f.numChannels (fun k => Poly.Poly.mk? srt ((f.lmax + 1) * (f.lmax + 1)) ((kept f).M0w a lm k) ((kept f).M0mon lm)))) []
    = loop f.atomicNumbers.length (fun a => loop ((f.Lmax + 1) * (f.Lmax + 1)) (fun lm =>
      pushLoop f.numChannels (fun k => Poly.Poly.mk? srt ((f.lmax + 1) * (f.lmax + 1)) (f.M0w a lm k) (f.M0mon lm)))) [] :=
    loop_congr (fun a ha s => loop_congr (fun lm hlm t => pushLoop_congr (fun k hk => by
      rw [kept_M0w ha hlm hk, kept_M0mon hlm]) t) s) []
  have hP1 : loop f.atomicNumbers.length (fun a =>
      pushLoop f.numChannels (fun k => Poly.Poly.mk? srt ((f.lmax + 1) * (f.lmax + 1)) ((kept f).M1w a k) f.M1mon)) []
    = loop f.atomicNumbers.length (fun a =>
      pushLoop f.numChannels (fun k => Poly.Poly.mk? srt ((f.lmax + 1) * (f.lmax + 1)) (f.M1w a k) f.M1mon)) [] :=
    loop_congr (fun a ha s => pushLoop_congr (fun k hk => by rw [kept_M1w ha hk]) s) []
  unfold MACE.load
  refine bindEq rfl fun _ => bindEq rfl fun _ => bindEq ?_ fun _ => bindEq hP0 fun _ => bindEq rfl fun _ => bindEq ?_ fun _ =>
    bindEq hP1 fun _ => bindEq rfl fun _ => rfl
  · unfold kept
    dsimp only
    cases f.A0scaled <;> rfl
  · unfold kept
    dsimp only
    cases f.A1scaled <;> rfl

theorem weightsView_congr {nT C n : ℕ} {ws ws' : ℕ → ℕ → List ℝ} {j : ℕ → ℝ} (h : ∀ a < nT, ∀ k < C, ws a k = ws' a k) :
    Kokkos.weightsView j nT C n ws = Kokkos.weightsView j nT C n ws' :=
  loop_congr (fun a ha s => loop_congr (fun k hk t => by rw [h a ha k hk]) s) _

theorem M0coeffView_congr {nT C M : ℕ} {ws ws' : ℕ → ℕ → List ℝ} {j : ℕ → ℝ} {mo : List (List ℕ)} (hT : 0 < nT) (hC : 0 < C)
    (h : ∀ a < nT, ∀ k < C, ws a k = ws' a k) :
    Kokkos.M0coeffView srt j nT C M ws mo = Kokkos.M0coeffView srt j nT C M ws' mo := by
  unfold Kokkos.M0coeffView
  refine bindEq (by rw [h 0 hT 0 hC]) fun P => loop_congr (fun a ha s => loop_congr (fun k hk t => by rw [h a ha k hk]) s) _

theorem loadK_kept (hT : 0 < f.atomicNumbers.length) (hC : 0 < f.numChannels) :
    Kokkos.load srt sph dsph junk ne (kept f) = Kokkos.load srt sph dsph junk ne f := by
  unfold Kokkos.load
  have hP1 : loop f.atomicNumbers.length (fun a =>
      pushLoop f.numChannels (fun k => Poly.Poly.mk? srt ((f.lmax + 1) * (f.lmax + 1)) ((kept f).M1w a k) f.M1mon)) []
    = loop f.atomicNumbers.length (fun a =>
      pushLoop f.numChannels (fun k => Poly.Poly.mk? srt ((f.lmax + 1) * (f.lmax + 1)) (f.M1w a k) f.M1mon)) [] :=
    loop_congr (fun a ha s => pushLoop_congr (fun k hk => by rw [kept_M1w ha hk]) s) []
  refine bindEq rfl fun _ => bindEq rfl fun _ => bindEq ?_ fun _ => bindEq ?_ fun _ => bindEq ?_ fun _ => bindEq ?_ fun _ =>
    bindEq ?_ fun _ => bindEq rfl fun _ => bindEq rfl fun _ => bindEq rfl fun _ => bindEq rfl fun _ => bindEq ?_ fun _ =>
    bindEq ?_ fun _ => bindEq ?_ fun _ => bindEq hP1 fun _ => rfl
  · unfold kept
    dsimp only
    cases f.A0scaled <;> rfl
  · exact pushLoop_congr (fun lm hlm => by
      rw [kept_M0mon (f := f) hlm]
      exact weightsView_congr (fun a ha k hk => kept_M0w ha hlm hk)) []
  · exact pushLoop_congr (fun lm hlm => by rw [kept_M0mon (f := f) hlm]) []
  · exact pushLoop_congr (fun lm hlm => by rw [kept_M0mon (f := f) hlm, kept_M0w (f := f) hT hlm hC]; rfl) []
  · exact pushLoop_congr (fun lm hlm => by
      rw [kept_M0mon (f := f) hlm]
      exact M0coeffView_congr hT hC (fun a ha k hk => kept_M0w ha hlm hk)) []
  · unfold kept
    dsimp only
    cases f.A1scaled <;> rfl
  · rw [kept_M1w hT hC]
    exact weightsView_congr (fun a ha k hk => kept_M1w ha hk)
  · rw [kept_M1w hT hC]
    rfl

end Verif.JsonModel
