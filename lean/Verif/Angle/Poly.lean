import Mathlib.Data.Real.Basic
import Mathlib.Tactic.Linarith
import Mathlib.Tactic.Positivity
import Mathlib.Tactic.Ring
import Mathlib.Tactic.NormNum

/-!
# Positivity of the polynomials behind C33 and C34

Each polynomial is written in the Bernstein basis of each piece of the interval, where all its
coefficients are nonnegative.
-/

namespace Verif.Angle

theorem c33_lo_small {w : ℝ} (h0 : (0) ≤ w) (h1 : w ≤ (1/2)) :
    0 ≤ w - w ^ 3 / 3 + w ^ 5 / 5 - w ^ 7 / 7 - (9817/10000 * w - 1963/10000 * w ^ 3) + 1016/100000 := by
  have u : 0 ≤ w - (0) := by linarith
  have v : 0 ≤ (1/2) - w := by linarith
  have e : w - w ^ 3 / 3 + w ^ 5 / 5 - w ^ 7 / 7 - (9817/10000 * w - 1963/10000 * w ^ 3) + 1016/100000 = (4064/3125) * ((w - (0)) ^ 0 * ((1/2) - w) ^ 7) + (32108/3125) * ((w - (0)) ^ 1 * ((1/2) - w) ^ 6) + (107304/3125) * ((w - (0)) ^ 2 * ((1/2) - w) ^ 5) + (114173/1875) * ((w - (0)) ^ 3 * ((1/2) - w) ^ 4) + (22564/375) * ((w - (0)) ^ 4 * ((1/2) - w) ^ 3) + (101634/3125) * ((w - (0)) ^ 5 * ((1/2) - w) ^ 2) + (84004/9375) * ((w - (0)) ^ 6 * ((1/2) - w) ^ 1) + (61444/65625) * ((w - (0)) ^ 7 * ((1/2) - w) ^ 0) := by ring
  rw [e]
  generalize w - (0) = uu at *
  generalize (1/2) - w = vv at *
  positivity

theorem c33_hi_small {w : ℝ} (h0 : (0) ≤ w) (h1 : w ≤ (1/2)) :
    0 ≤ (9817/10000 * w - 1963/10000 * w ^ 3) + 1016/100000 - (w - w ^ 3 / 3 + w ^ 5 / 5 - w ^ 7 / 7 + w ^ 9 / 9) := by
  have u : 0 ≤ w - (0) := by linarith
  have v : 0 ≤ (1/2) - w := by linarith
  have e : (9817/10000 * w - 1963/10000 * w ^ 3) + 1016/100000 - (w - w ^ 3 / 3 + w ^ 5 / 5 - w ^ 7 / 7 + w ^ 9 / 9) = (16256/3125) * ((w - (0)) ^ 0 * ((1/2) - w) ^ 9) + (131664/3125) * ((w - (0)) ^ 1 * ((1/2) - w) ^ 8) + (468096/3125) * ((w - (0)) ^ 2 * ((1/2) - w) ^ 7) + (2948972/9375) * ((w - (0)) ^ 3 * ((1/2) - w) ^ 6) + (1392856/3125) * ((w - (0)) ^ 4 * ((1/2) - w) ^ 5) + (1424556/3125) * ((w - (0)) ^ 5 * ((1/2) - w) ^ 4) + (3161392/9375) * ((w - (0)) ^ 6 * ((1/2) - w) ^ 3) + (3697272/21875) * ((w - (0)) ^ 7 * ((1/2) - w) ^ 2) + (1100368/21875) * ((w - (0)) ^ 8 * ((1/2) - w) ^ 1) + (1289053/196875) * ((w - (0)) ^ 9 * ((1/2) - w) ^ 0) := by ring
  rw [e]
  generalize w - (0) = uu at *
  generalize (1/2) - w = vv at *
  positivity

theorem c33_lo_big {w : ℝ} (h0 : (0) ≤ w) (h1 : w ≤ (1/3)) :
    0 ≤ (785398/1000000 - (w - w ^ 3 / 3 + w ^ 5 / 5) + 1016/100000) * (1 + w) ^ 3 - (9817/10000 * (1 - w) * (1 + w) ^ 2 - 1963/10000 * (1 - w) ^ 3) := by
  by_cases g0 : w ≤ (1/12)
  · have u : 0 ≤ w - (0) := by linarith
    have v : 0 ≤ (1/12) - w := by linarith
    have e : (785398/1000000 - (w - w ^ 3 / 3 + w ^ 5 / 5) + 1016/100000) * (1 + w) ^ 3 - (9817/10000 * (1 - w) * (1 + w) ^ 2 - 1963/10000 * (1 - w) ^ 3) = (68246157312/15625) * ((w - (0)) ^ 0 * ((1/12) - w) ^ 8) + (442994241024/15625) * ((w - (0)) ^ 1 * ((1/12) - w) ^ 7) + (1234729858176/15625) * ((w - (0)) ^ 2 * ((1/12) - w) ^ 6) + (1923063661728/15625) * ((w - (0)) ^ 3 * ((1/12) - w) ^ 5) + (2915100576/25) * ((w - (0)) ^ 4 * ((1/12) - w) ^ 4) + (1068719959872/15625) * ((w - (0)) ^ 5 * ((1/12) - w) ^ 3) + (376207521024/15625) * ((w - (0)) ^ 6 * ((1/12) - w) ^ 2) + (72076901676/15625) * ((w - (0)) ^ 7 * ((1/12) - w) ^ 1) + (5733364663/15625) * ((w - (0)) ^ 8 * ((1/12) - w) ^ 0) := by ring
    rw [e]
    generalize w - (0) = uu at *
    generalize (1/12) - w = vv at *
    positivity
  rw [not_le] at g0
  by_cases g1 : w ≤ (5/48)
  · have u : 0 ≤ w - (1/12) := by linarith
    have v : 0 ≤ (5/48) - w := by linarith
    have e : (785398/1000000 - (w - w ^ 3 / 3 + w ^ 5 / 5) + 1016/100000) * (1 + w) ^ 3 - (9817/10000 * (1 - w) * (1 + w) ^ 2 - 1963/10000 * (1 - w) ^ 3) = (375741786554368/15625) * ((w - (1/12)) ^ 0 * ((5/48) - w) ^ 8) + (2576509908484096/15625) * ((w - (1/12)) ^ 1 * ((5/48) - w) ^ 7) + (7646704543596544/15625) * ((w - (1/12)) ^ 2 * ((5/48) - w) ^ 6) + (12810941370314752/15625) * ((w - (1/12)) ^ 3 * ((5/48) - w) ^ 5) + (529203388630528/625) * ((w - (1/12)) ^ 4 * ((5/48) - w) ^ 4) + (8608710271537408/15625) * ((w - (1/12)) ^ 5 * ((5/48) - w) ^ 3) + (3440406100276096/15625) * ((w - (1/12)) ^ 6 * ((5/48) - w) ^ 2) + (770905591494544/15625) * ((w - (1/12)) ^ 7 * ((5/48) - w) ^ 1) + (74129995637467/15625) * ((w - (1/12)) ^ 8 * ((5/48) - w) ^ 0) := by ring
    rw [e]
    generalize w - (1/12) = uu at *
    generalize (5/48) - w = vv at *
    positivity
  rw [not_le] at g1
  by_cases g2 : w ≤ (1/8)
  · have u : 0 ≤ w - (5/48) := by linarith
    have v : 0 ≤ (1/8) - w := by linarith
    have e : (785398/1000000 - (w - w ^ 3 / 3 + w ^ 5 / 5) + 1016/100000) * (1 + w) ^ 3 - (9817/10000 * (1 - w) * (1 + w) ^ 2 - 1963/10000 * (1 - w) ^ 3) = (74129995637467/15625) * ((w - (5/48)) ^ 0 * ((1/8) - w) ^ 8) + (415174338704928/15625) * ((w - (5/48)) ^ 1 * ((1/8) - w) ^ 7) + (950287330748784/15625) * ((w - (5/48)) ^ 2 * ((1/8) - w) ^ 6) + (1130331291819264/15625) * ((w - (5/48)) ^ 3 * ((1/8) - w) ^ 5) + (29575100497824/625) * ((w - (5/48)) ^ 4 * ((1/8) - w) ^ 4) + (280122483866112/15625) * ((w - (5/48)) ^ 5 * ((1/8) - w) ^ 3) + (96126541302528/15625) * ((w - (5/48)) ^ 6 * ((1/8) - w) ^ 2) + (46282799775744/15625) * ((w - (5/48)) ^ 7 * ((1/8) - w) ^ 1) + (11989534028544/15625) * ((w - (5/48)) ^ 8 * ((1/8) - w) ^ 0) := by ring
    rw [e]
    generalize w - (5/48) = uu at *
    generalize (1/8) - w = vv at *
    positivity
  rw [not_le] at g2
  by_cases g3 : w ≤ (1/6)
  · have u : 0 ≤ w - (1/8) := by linarith
    have v : 0 ≤ (1/6) - w := by linarith
    have e : (785398/1000000 - (w - w ^ 3 / 3 + w ^ 5 / 5) + 1016/100000) * (1 + w) ^ 3 - (9817/10000 * (1 - w) * (1 + w) ^ 2 - 1963/10000 * (1 - w) ^ 3) = (46834117299/15625) * ((w - (1/8)) ^ 0 * ((1/6) - w) ^ 8) + (762434441928/15625) * ((w - (1/8)) ^ 1 * ((1/6) - w) ^ 7) + (5710902928992/15625) * ((w - (1/8)) ^ 2 * ((1/6) - w) ^ 6) + (20755500932736/15625) * ((w - (1/8)) ^ 3 * ((1/6) - w) ^ 5) + (1660912625664/625) * ((w - (1/8)) ^ 4 * ((1/6) - w) ^ 4) + (48691899270144/15625) * ((w - (1/8)) ^ 5 * ((1/6) - w) ^ 3) + (33530029436928/15625) * ((w - (1/8)) ^ 6 * ((1/6) - w) ^ 2) + (12601168084992/15625) * ((w - (1/8)) ^ 7 * ((1/6) - w) ^ 1) + (2000420601856/15625) * ((w - (1/8)) ^ 8 * ((1/6) - w) ^ 0) := by ring
    rw [e]
    generalize w - (1/8) = uu at *
    generalize (1/6) - w = vv at *
    positivity
  rw [not_le] at g3
  have u : 0 ≤ w - (1/6) := by linarith
  have v : 0 ≤ (1/3) - w := by linarith
  have e : (785398/1000000 - (w - w ^ 3 / 3 + w ^ 5 / 5) + 1016/100000) * (1 + w) ^ 3 - (9817/10000 * (1 - w) * (1 + w) ^ 2 - 1963/10000 * (1 - w) ^ 3) = (30523996/15625) * ((w - (1/6)) ^ 0 * ((1/3) - w) ^ 8) + (451845577/15625) * ((w - (1/6)) ^ 1 * ((1/3) - w) ^ 7) + (2633840338/15625) * ((w - (1/6)) ^ 2 * ((1/3) - w) ^ 6) + (7913571334/15625) * ((w - (1/6)) ^ 3 * ((1/3) - w) ^ 5) + (549889183/625) * ((w - (1/6)) ^ 4 * ((1/3) - w) ^ 4) + (14425204051/15625) * ((w - (1/6)) ^ 5 * ((1/3) - w) ^ 3) + (9053796952/15625) * ((w - (1/6)) ^ 6 * ((1/3) - w) ^ 2) + (3137277088/15625) * ((w - (1/6)) ^ 7 * ((1/3) - w) ^ 1) + (462504064/15625) * ((w - (1/6)) ^ 8 * ((1/3) - w) ^ 0) := by ring
  rw [e]
  generalize w - (1/6) = uu at *
  generalize (1/3) - w = vv at *
  positivity

theorem c33_hi_big {w : ℝ} (h0 : (0) ≤ w) (h1 : w ≤ (1/3)) :
    0 ≤ (-(78539825/100000000) + (w - w ^ 3 / 3 + w ^ 5 / 5 - w ^ 7 / 7) + 1016/100000) * (1 + w) ^ 3 + (9817/10000 * (1 - w) * (1 + w) ^ 2 - 1963/10000 * (1 - w) ^ 3) := by
  have u : 0 ≤ w - (0) := by linarith
  have v : 0 ≤ (1/3) - w := by linarith
  have e : (-(78539825/100000000) + (w - w ^ 3 / 3 + w ^ 5 / 5 - w ^ 7 / 7) + 1016/100000) * (1 + w) ^ 3 + (9817/10000 * (1 - w) * (1 + w) ^ 2 - 1963/10000 * (1 - w) ^ 3) = (2400164703/4000000) * ((w - (0)) ^ 0 * ((1/3) - w) ^ 10) + (43281952533/4000000) * ((w - (0)) ^ 1 * ((1/3) - w) ^ 9) + (258007276863/4000000) * ((w - (0)) ^ 2 * ((1/3) - w) ^ 8) + (160720644933/800000) * ((w - (0)) ^ 3 * ((1/3) - w) ^ 7) + (1532668245633/4000000) * ((w - (0)) ^ 4 * ((1/3) - w) ^ 6) + (1919287146159/4000000) * ((w - (0)) ^ 5 * ((1/3) - w) ^ 5) + (1621593360693/4000000) * ((w - (0)) ^ 6 * ((1/3) - w) ^ 4) + (6450826605381/28000000) * ((w - (0)) ^ 7 * ((1/3) - w) ^ 3) + (118834171209/1400000) * ((w - (0)) ^ 8 * ((1/3) - w) ^ 2) + (32223709251/1750000) * ((w - (0)) ^ 9 * ((1/3) - w) ^ 1) + (785022773/437500) * ((w - (0)) ^ 10 * ((1/3) - w) ^ 0) := by ring
  rw [e]
  generalize w - (0) = uu at *
  generalize (1/3) - w = vv at *
  positivity

theorem c34_lo_small {w : ℝ} (h0 : (0) ≤ w) (h1 : w ≤ (1/2)) :
    0 ≤ (w - w ^ 3 / 3 + w ^ 5 / 5 - w ^ 7 / 7 + 499/100000) * (1 + 28/100 * w ^ 2) - w := by
  have u : 0 ≤ w - (0) := by linarith
  have v : 0 ≤ (1/2) - w := by linarith
  have e : (w - w ^ 3 / 3 + w ^ 5 / 5 - w ^ 7 / 7 + 499/100000) * (1 + 28/100 * w ^ 2) - w = (7984/3125) * ((w - (0)) ^ 0 * ((1/2) - w) ^ 9) + (71856/3125) * ((w - (0)) ^ 1 * ((1/2) - w) ^ 8) + (7199572/78125) * ((w - (0)) ^ 2 * ((1/2) - w) ^ 7) + (49792612/234375) * ((w - (0)) ^ 3 * ((1/2) - w) ^ 6) + (23843012/78125) * ((w - (0)) ^ 4 * ((1/2) - w) ^ 5) + (13063172/46875) * ((w - (0)) ^ 5 * ((1/2) - w) ^ 4) + (2491084/15625) * ((w - (0)) ^ 6 * ((1/2) - w) ^ 3) + (29763084/546875) * ((w - (0)) ^ 7 * ((1/2) - w) ^ 2) + (16238284/1640625) * ((w - (0)) ^ 8 * ((1/2) - w) ^ 1) + (1049387/1640625) * ((w - (0)) ^ 9 * ((1/2) - w) ^ 0) := by ring
  rw [e]
  generalize w - (0) = uu at *
  generalize (1/2) - w = vv at *
  positivity

theorem c34_hi_small {w : ℝ} (h0 : (0) ≤ w) (h1 : w ≤ (1/2)) :
    0 ≤ w + (499/100000 - (w - w ^ 3 / 3 + w ^ 5 / 5 - w ^ 7 / 7 + w ^ 9 / 9)) * (1 + 28/100 * w ^ 2) := by
  have u : 0 ≤ w - (0) := by linarith
  have v : 0 ≤ (1/2) - w := by linarith
  have e : w + (499/100000 - (w - w ^ 3 / 3 + w ^ 5 / 5 - w ^ 7 / 7 + w ^ 9 / 9)) * (1 + 28/100 * w ^ 2) = (31936/3125) * ((w - (0)) ^ 0 * ((1/2) - w) ^ 11) + (351296/3125) * ((w - (0)) ^ 1 * ((1/2) - w) ^ 10) + (43967888/78125) * ((w - (0)) ^ 2 * ((1/2) - w) ^ 9) + (399916976/234375) * ((w - (0)) ^ 3 * ((1/2) - w) ^ 8) + (822051904/234375) * ((w - (0)) ^ 4 * ((1/2) - w) ^ 7) + (1208666176/234375) * ((w - (0)) ^ 5 * ((1/2) - w) ^ 6) + (1297308064/234375) * ((w - (0)) ^ 6 * ((1/2) - w) ^ 5) + (7083071648/1640625) * ((w - (0)) ^ 7 * ((1/2) - w) ^ 4) + (3904562432/1640625) * ((w - (0)) ^ 8 * ((1/2) - w) ^ 3) + (4310449984/4921875) * ((w - (0)) ^ 9 * ((1/2) - w) ^ 2) + (945539696/4921875) * ((w - (0)) ^ 10 * ((1/2) - w) ^ 1) + (92707019/4921875) * ((w - (0)) ^ 11 * ((1/2) - w) ^ 0) := by ring
  rw [e]
  generalize w - (0) = uu at *
  generalize (1/2) - w = vv at *
  positivity

theorem c34_lo_big {w : ℝ} (h0 : (0) ≤ w) (h1 : w ≤ (1/3)) :
    0 ≤ (785398/1000000 - (w - w ^ 3 / 3 + w ^ 5 / 5) + 499/100000) * ((1 + w) ^ 2 + 28/100 * (1 - w) ^ 2) - (1 + w) * (1 - w) := by
  by_cases g0 : w ≤ (1/6)
  · have u : 0 ≤ w - (0) := by linarith
    have v : 0 ≤ (1/6) - w := by linarith
    have e : (785398/1000000 - (w - w ^ 3 / 3 + w ^ 5 / 5) + 499/100000) * ((1 + w) ^ 2 + 28/100 * (1 - w) ^ 2) - (1 + w) * (1 - w) = (1279027584/390625) * ((w - (0)) ^ 0 * ((1/6) - w) ^ 7) + (1273627152/78125) * ((w - (0)) ^ 1 * ((1/6) - w) ^ 6) + (2617152768/78125) * ((w - (0)) ^ 2 * ((1/6) - w) ^ 5) + (2848149648/78125) * ((w - (0)) ^ 3 * ((1/6) - w) ^ 4) + (1748520864/78125) * ((w - (0)) ^ 4 * ((1/6) - w) ^ 3) + (2980904784/390625) * ((w - (0)) ^ 5 * ((1/6) - w) ^ 2) + (104623368/78125) * ((w - (0)) ^ 6 * ((1/6) - w) ^ 1) + (1624952/15625) * ((w - (0)) ^ 7 * ((1/6) - w) ^ 0) := by ring
    rw [e]
    generalize w - (0) = uu at *
    generalize (1/6) - w = vv at *
    positivity
  rw [not_le] at g0
  have u : 0 ≤ w - (1/6) := by linarith
  have v : 0 ≤ (1/3) - w := by linarith
  have e : (785398/1000000 - (w - w ^ 3 / 3 + w ^ 5 / 5) + 499/100000) * ((1 + w) ^ 2 + 28/100 * (1 - w) ^ 2) - (1 + w) * (1 - w) = (1624952/15625) * ((w - (1/6)) ^ 0 * ((1/3) - w) ^ 7) + (9123272/78125) * ((w - (1/6)) ^ 1 * ((1/3) - w) ^ 6) + (115901904/390625) * ((w - (1/6)) ^ 2 * ((1/3) - w) ^ 5) + (210819424/78125) * ((w - (1/6)) ^ 3 * ((1/3) - w) ^ 4) + (517347728/78125) * ((w - (1/6)) ^ 4 * ((1/3) - w) ^ 3) + (551951328/78125) * ((w - (1/6)) ^ 5 * ((1/3) - w) ^ 2) + (276826576/78125) * ((w - (1/6)) ^ 6 * ((1/3) - w) ^ 1) + (267827104/390625) * ((w - (1/6)) ^ 7 * ((1/3) - w) ^ 0) := by ring
  rw [e]
  generalize w - (1/6) = uu at *
  generalize (1/3) - w = vv at *
  positivity

theorem c34_hi_big {w : ℝ} (h0 : (0) ≤ w) (h1 : w ≤ (1/3)) :
    0 ≤ (-(78539825/100000000) + (w - w ^ 3 / 3 + w ^ 5 / 5 - w ^ 7 / 7) + 499/100000) * ((1 + w) ^ 2 + 28/100 * (1 - w) ^ 2) + (1 + w) * (1 - w) := by
  have u : 0 ≤ w - (0) := by linarith
  have v : 0 ≤ (1/3) - w := by linarith
  have e : (-(78539825/100000000) + (w - w ^ 3 / 3 + w ^ 5 / 5 - w ^ 7 / 7) + 499/100000) * ((1 + w) ^ 2 + 28/100 * (1 - w) ^ 2) + (1 + w) * (1 - w) = (66272661/3125000) * ((w - (0)) ^ 0 * ((1/3) - w) ^ 9) + (1215772983/1000000) * ((w - (0)) ^ 1 * ((1/3) - w) ^ 8) + (3023577801/390625) * ((w - (0)) ^ 2 * ((1/3) - w) ^ 7) + (28180449747/1250000) * ((w - (0)) ^ 3 * ((1/3) - w) ^ 6) + (14848886547/390625) * ((w - (0)) ^ 4 * ((1/3) - w) ^ 5) + (504588783609/12500000) * ((w - (0)) ^ 5 * ((1/3) - w) ^ 4) + (4315811571/156250) * ((w - (0)) ^ 6 * ((1/3) - w) ^ 3) + (520497384237/43750000) * ((w - (0)) ^ 7 * ((1/3) - w) ^ 2) + (12913219269/4375000) * ((w - (0)) ^ 8 * ((1/3) - w) ^ 1) + (56525283121/175000000) * ((w - (0)) ^ 9 * ((1/3) - w) ^ 0) := by ring
  rw [e]
  generalize w - (0) = uu at *
  generalize (1/3) - w = vv at *
  positivity

end Verif.Angle
