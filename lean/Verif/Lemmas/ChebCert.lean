import Mathlib.RingTheory.Polynomial.Chebyshev
import Mathlib.Tactic.LinearCombination

/-!
# Real-rooted polynomials of the collocation problem

`F = X U_(N-1)` is the second residual of the collocated derivative.  `∑ w^k F^(2k+1)(1)` has only real negative roots:
for `2 ≤ N ≤ 100`, by sign changes at the integer points listed in `certs`, evaluated by the kernel.
-/

namespace Aerokit.ChebCert
open Polynomial

/-- evaluate the argument first -/
def force {β : Type} (n : ℕ) (f : ℕ → β) : β :=
  match n with
  | 0 => f 0
  | k + 1 => f (k + 1)

theorem force_eq {β : Type} (n : ℕ) (f : ℕ → β) : force n f = f n := by cases n <;> rfl

/-- evaluate the argument first -/
def forceI {β : Type} (z : ℤ) (f : ℤ → β) : β :=
  match z with
  | .ofNat n => force n fun n => f (.ofNat n)
  | .negSucc n => force n fun n => f (.negSucc n)

theorem forceI_eq {β : Type} (z : ℤ) (f : ℤ → β) : forceI z f = f z := by cases z <;> simp [forceI, force_eq]

/-- next derivative of `U_(N-1)` at 1 -/
def nxt (N k u : ℕ) : ℕ := (N ^ 2 - (k + 1) ^ 2) * u / (2 * k + 3)

/-- Horner scheme of `∑ F^(2j+1)(1) x^(d-j)` at `x = -s`, from the derivative number `k` -/
def horn (N s : ℕ) : ℕ → ℕ → ℕ → ℤ → ℤ
  | 0, _, _, acc => acc
  | f + 1, k, u, acc => force (nxt N k u) fun v => force (nxt N (k + 1) v) fun u' =>
      forceI (-(s:ℤ) * acc + ((v + (k + 1) * u : ℕ) : ℤ)) fun acc' => horn N s f (k + 2) u' acc'

/-- the signs at the points alternate, the points increase -/
def alt (N f : ℕ) : Bool → ℕ → List ℕ → Bool
  | _, _, [] => true
  | sg, lo, s :: l => (if sg then decide (0 < horn N s f 0 N 0) else decide (horn N s f 0 N 0 < 0)) && decide (lo < s + 1) &&
      alt N f (!sg) (s + 1) l

/-- the certificate of `N` -/
def good (N : ℕ) (l : List ℕ) : Bool := (l.length == (N - 1) / 2 + 1) && alt N ((N - 1) / 2 + 1) true 0 l

def goods : ℕ → List (List ℕ) → Bool
  | _, [] => true
  | N, l :: ls => good N l && goods (N + 1) ls

/-- sign change points, `2 ≤ N ≤ 40` -/
def certs0 : List (List ℕ) := [
    [0],
    [0, 3],
    [0, 9],
    [0, 3, 18],
    [0, 10, 33],
    [0, 3, 25, 49],
    [0, 10, 42, 76],
    [0, 3, 25, 64, 115],
    [0, 10, 42, 90, 169],
    [0, 3, 25, 64, 121, 232],
    [0, 10, 42, 90, 156, 324],
    [0, 3, 25, 64, 121, 203, 441],
    [0, 10, 42, 90, 150, 264, 588],
    [0, 3, 25, 64, 126, 189, 333, 756],
    [0, 10, 42, 90, 162, 232, 420, 976],
    [0, 3, 25, 64, 121, 203, 280, 517, 1242],
    [0, 10, 42, 90, 162, 248, 333, 637, 1560],
    [0, 3, 25, 64, 121, 203, 306, 390, 784, 1914],
    [0, 10, 42, 90, 162, 248, 361, 462, 945, 2352],
    [0, 3, 25, 64, 121, 203, 297, 410, 552, 1139, 2835],
    [0, 10, 42, 90, 162, 248, 361, 484, 650, 1369, 3422],
    [0, 3, 25, 64, 121, 203, 306, 410, 552, 756, 1620, 4064],
    [0, 10, 42, 90, 162, 248, 361, 473, 637, 885, 1892, 4830],
    [0, 3, 25, 64, 121, 203, 306, 420, 540, 729, 1024, 2232, 5662],
    [0, 10, 42, 90, 162, 248, 361, 495, 612, 826, 1190, 2575, 6601],
    [0, 3, 25, 64, 121, 203, 306, 420, 564, 689, 945, 1369, 2997, 7656],
    [0, 10, 42, 90, 162, 248, 361, 484, 637, 770, 1072, 1580, 3451, 8883],
    [0, 3, 25, 64, 121, 203, 306, 420, 564, 715, 855, 1207, 1806, 3937, 10201],
    [0, 10, 42, 90, 162, 248, 361, 484, 637, 798, 945, 1369, 2047, 4522, 11664],
    [0, 3, 25, 64, 121, 203, 306, 420, 564, 715, 885, 1056, 1540, 2328, 5112, 13282],
    [0, 10, 42, 90, 162, 248, 361, 484, 637, 798, 976, 1173, 1722, 2626, 5814, 15067],
    [0, 3, 25, 64, 121, 203, 306, 420, 564, 715, 885, 1072, 1314, 1936, 2943, 6561, 17030],
    [0, 10, 42, 90, 162, 248, 361, 484, 637, 812, 976, 1190, 1463, 2162, 3306, 7353, 19182],
    [0, 3, 25, 64, 121, 203, 306, 420, 564, 715, 900, 1072, 1296, 1620, 2401, 3690, 8235, 21535],
    [0, 10, 42, 90, 162, 248, 361, 484, 637, 812, 992, 1173, 1425, 1785, 2678, 4128, 9216, 24102],
    [0, 3, 25, 64, 121, 203, 306, 420, 564, 715, 900, 1089, 1278, 1560, 1980, 2970, 4590, 10251, 26814],
    [0, 10, 42, 90, 162, 248, 361, 484, 637, 812, 992, 1207, 1387, 1701, 2185, 3277, 5112, 11395, 29842],
    [0, 3, 25, 64, 121, 203, 306, 420, 564, 715, 900, 1089, 1314, 1501, 1870, 2401, 3630, 5625, 12656, 33124],
    [0, 10, 42, 90, 162, 248, 361, 484, 637, 812, 992, 1207, 1425, 1620, 2047, 2626, 4000, 6241, 13983, 36672]]

theorem certs0_good : goods 2 certs0 = true := by decide +kernel

/-- sign change points, `41 ≤ N ≤ 60` -/
def certs1 : List (List ℕ) := [
    [0, 3, 25, 64, 121, 203, 306, 420, 564, 715, 900, 1089, 1314, 1540, 1743, 2232, 2889, 4389, 6847, 15376, 40401],
    [0, 10, 42, 90, 162, 248, 361, 484, 637, 812, 992, 1207, 1425, 1660, 1892, 2425, 3164, 4830, 7525, 16965, 44521],
    [0, 3, 25, 64, 121, 203, 306, 420, 564, 715, 900, 1089, 1314, 1540, 1785, 2047, 2652, 3451, 5292, 8235, 18564, 48841],
    [0, 10, 42, 90, 162, 248, 361, 484, 637, 812, 992, 1207, 1425, 1660, 1914, 2209, 2862, 3751, 5776, 9025, 20377, 53592],
    [0, 3, 25, 64, 121, 203, 306, 420, 564, 715, 900, 1089, 1314, 1560, 1785, 2070, 2401, 3108, 4096, 6280, 9850, 22275,
    58564],
    [0, 10, 42, 90, 162, 248, 361, 484, 637, 812, 992, 1207, 1425, 1681, 1914, 2209, 2575, 3393, 4455, 6847, 10764, 24258,
    63882],
    [0, 3, 25, 64, 121, 203, 306, 420, 564, 715, 900, 1089, 1314, 1560, 1806, 2047, 2376, 2782, 3660, 4830, 7439, 11718,
    26406, 69696],
    [0, 10, 42, 90, 162, 248, 361, 484, 637, 812, 992, 1207, 1425, 1681, 1936, 2185, 2550, 2997, 3969, 5220, 8055, 12712,
    28730, 75762],
    [0, 3, 25, 64, 121, 203, 306, 420, 564, 715, 900, 1089, 1314, 1560, 1806, 2093, 2328, 2730, 3249, 4290, 5662, 8742, 13806,
    31152, 82225],
    [0, 10, 42, 90, 162, 248, 361, 484, 637, 812, 992, 1207, 1425, 1681, 1936, 2232, 2475, 2916, 3481, 4624, 6123, 9457,
    14945, 33764, 89102],
    [0, 3, 25, 64, 121, 203, 306, 420, 564, 715, 900, 1089, 1314, 1560, 1806, 2093, 2376, 2626, 3136, 3751, 4970, 6601, 10201,
    16129, 36576, 96565],
    [0, 10, 42, 90, 162, 248, 361, 484, 637, 812, 992, 1207, 1425, 1681, 1936, 2232, 2525, 2782, 3335, 4032, 5329, 7098,
    11025, 17424, 39501, 104329],
    [0, 3, 25, 64, 121, 203, 306, 420, 564, 715, 900, 1089, 1314, 1560, 1806, 2093, 2376, 2678, 2970, 3570, 4323, 5738, 7656,
    11881, 18769, 42539, 112560],
    [0, 10, 42, 90, 162, 248, 361, 484, 637, 812, 992, 1207, 1425, 1681, 1936, 2232, 2525, 2835, 3164, 3813, 4624, 6162, 8235,
    12769, 20235, 45903, 121278],
    [0, 3, 25, 64, 121, 203, 306, 420, 564, 715, 900, 1089, 1314, 1560, 1806, 2093, 2376, 2678, 2997, 3364, 4096, 4970, 6601,
    8836, 13747, 21756, 49395, 130501],
    [0, 10, 42, 90, 162, 248, 361, 484, 637, 812, 992, 1207, 1425, 1681, 1936, 2232, 2550, 2835, 3164, 3570, 4356, 5292, 7098,
    9457, 14701, 23332, 53015, 140063],
    [0, 3, 25, 64, 121, 203, 306, 420, 564, 715, 900, 1089, 1314, 1560, 1806, 2093, 2376, 2704, 2997, 3364, 3813, 4658, 5662,
    7569, 10150, 15813, 25043, 56882, 150350],
    [0, 10, 42, 90, 162, 248, 361, 484, 637, 812, 992, 1207, 1425, 1681, 1936, 2232, 2550, 2862, 3164, 3570, 4032, 4935, 6045,
    8100, 10816, 16900, 26814, 60885, 161202],
    [0, 3, 25, 64, 121, 203, 306, 420, 564, 715, 900, 1089, 1314, 1560, 1806, 2093, 2376, 2704, 3025, 3335, 3751, 4290, 5256,
    6440, 8649, 11556, 18090, 28730, 65280, 172640],
    [0, 10, 42, 90, 162, 248, 361, 484, 637, 812, 992, 1207, 1425, 1681, 1936, 2232, 2550, 2862, 3220, 3510, 3969, 4556, 5587,
    6847, 9216, 12376, 19321, 30712, 69696, 184685]]

theorem certs1_good : goods 41 certs1 = true := by decide +kernel

/-- sign change points, `61 ≤ N ≤ 75` -/
def certs2 : List (List ℕ) := [
    [0, 3, 25, 64, 121, 203, 306, 420, 564, 715, 900, 1089, 1314, 1560, 1806, 2093, 2376, 2704, 3025, 3393, 3690, 4192, 4830,
    5967, 7310, 9801, 13167, 20592, 32761, 74529, 197136],
    [0, 10, 42, 90, 162, 248, 361, 484, 637, 812, 992, 1207, 1425, 1681, 1936, 2232, 2550, 2862, 3192, 3570, 3875, 4455, 5112,
    6320, 7788, 10455, 14042, 21978, 34969, 79383, 210451],
    [0, 3, 25, 64, 121, 203, 306, 420, 564, 715, 900, 1089, 1314, 1560, 1806, 2093, 2376, 2704, 3025, 3393, 3751, 4064, 4692,
    5439, 6724, 8281, 11130, 14945, 23409, 37249, 84681, 224202],
    [0, 10, 42, 90, 162, 248, 361, 484, 637, 812, 992, 1207, 1425, 1681, 1936, 2232, 2550, 2862, 3220, 3570, 3937, 4290, 4970,
    5738, 7098, 8789, 11826, 15876, 24885, 39601, 90150, 238876],
    [0, 3, 25, 64, 121, 203, 306, 420, 564, 715, 900, 1089, 1314, 1560, 1806, 2093, 2376, 2704, 3025, 3393, 3751, 4128, 4522,
    5256, 6084, 7525, 9312, 12544, 16900, 26406, 42127, 95945, 254016],
    [0, 10, 42, 90, 162, 248, 361, 484, 637, 812, 992, 1207, 1425, 1681, 1936, 2232, 2550, 2862, 3220, 3570, 3937, 4323, 4761,
    5550, 6440, 7965, 9850, 13282, 17956, 28056, 44732, 101920, 270140],
    [0, 3, 25, 64, 121, 203, 306, 420, 564, 715, 900, 1089, 1314, 1560, 1806, 2093, 2376, 2704, 3025, 3393, 3782, 4128, 4522,
    5005, 5852, 6806, 8464, 10455, 14101, 19044, 29756, 47524, 108241, 286760],
    [0, 10, 42, 90, 162, 248, 361, 484, 637, 812, 992, 1207, 1425, 1681, 1936, 2232, 2550, 2862, 3220, 3570, 3969, 4323, 4761,
    5256, 6162, 7182, 8930, 11077, 14945, 20164, 31595, 50400, 114751, 304428],
    [0, 3, 25, 64, 121, 203, 306, 420, 564, 715, 900, 1089, 1314, 1560, 1806, 2093, 2376, 2704, 3025, 3393, 3782, 4160, 4522,
    4970, 5550, 6480, 7612, 9457, 11664, 15813, 21316, 33489, 53361, 121626, 322624],
    [0, 10, 42, 90, 162, 248, 361, 484, 637, 812, 992, 1207, 1425, 1681, 1936, 2232, 2550, 2862, 3220, 3570, 3969, 4356, 4726,
    5220, 5814, 6847, 8010, 9950, 12376, 16705, 22575, 35438, 56525, 128881, 341640],
    [0, 3, 25, 64, 121, 203, 306, 420, 564, 715, 900, 1089, 1314, 1560, 1806, 2093, 2376, 2704, 3025, 3393, 3782, 4160, 4556,
    4935, 5476, 6123, 7225, 8464, 10506, 13053, 17622, 23870, 37442, 59780, 136345, 361501],
    [0, 10, 42, 90, 162, 248, 361, 484, 637, 812, 992, 1207, 1425, 1681, 1936, 2232, 2550, 2862, 3220, 3570, 3969, 4356, 4795,
    5148, 5738, 6440, 7569, 8883, 11077, 13747, 18632, 25201, 39601, 63252, 144020, 382233],
    [0, 3, 25, 64, 121, 203, 306, 420, 564, 715, 900, 1089, 1314, 1560, 1806, 2093, 2376, 2704, 3025, 3393, 3782, 4160, 4556,
    5005, 5365, 6006, 6765, 7965, 9360, 11664, 14520, 19670, 26569, 41820, 66822, 152295, 403860],
    [0, 10, 42, 90, 162, 248, 361, 484, 637, 812, 992, 1207, 1425, 1681, 1936, 2232, 2550, 2862, 3220, 3570, 3969, 4356, 4795,
    5220, 5587, 6320, 7098, 8372, 9850, 12321, 15314, 20736, 28056, 44100, 70490, 160801, 426735],
    [0, 3, 25, 64, 121, 203, 306, 420, 564, 715, 900, 1089, 1314, 1560, 1806, 2093, 2376, 2704, 3025, 3393, 3782, 4160, 4590,
    5005, 5439, 5852, 6601, 7439, 8789, 10353, 12939, 16129, 21830, 29584, 46440, 74392, 169538, 450241]]

theorem certs2_good : goods 61 certs2 = true := by decide +kernel

/-- sign change points, `76 ≤ N ≤ 90` -/
def certs3 : List (List ℕ) := [
    [0, 10, 42, 90, 162, 248, 361, 484, 637, 812, 992, 1207, 1425, 1681, 1936, 2232, 2550, 2862, 3220, 3570, 3969, 4356, 4795,
    5220, 5662, 6123, 6930, 7832, 9264, 10920, 13630, 16965, 23028, 31152, 48951, 78400, 178717, 474721],
    [0, 3, 25, 64, 121, 203, 306, 420, 564, 715, 900, 1089, 1314, 1560, 1806, 2093, 2376, 2704, 3025, 3393, 3782, 4160, 4590,
    5005, 5439, 5890, 6400, 7225, 8190, 9702, 11449, 14340, 17822, 24180, 32851, 51642, 82512, 188356, 499849],
    [0, 10, 42, 90, 162, 248, 361, 484, 637, 812, 992, 1207, 1425, 1681, 1936, 2232, 2550, 2862, 3220, 3570, 3969, 4356, 4795,
    5256, 5662, 6123, 6683, 7569, 8602, 10201, 12045, 15067, 18769, 25440, 34503, 54289, 86877, 198247, 526350],
    [0, 3, 25, 64, 121, 203, 306, 420, 564, 715, 900, 1089, 1314, 1560, 1806, 2093, 2376, 2704, 3025, 3393, 3782, 4160, 4590,
    5005, 5476, 5890, 6400, 6972, 7921, 8977, 10660, 12600, 15813, 19670, 26732, 36290, 57121, 91355, 208620, 553908],
    [0, 10, 42, 90, 162, 248, 361, 484, 637, 812, 992, 1207, 1425, 1681, 1936, 2232, 2550, 2862, 3220, 3570, 3969, 4356, 4795,
    5220, 5700, 6123, 6642, 7267, 8281, 9409, 11183, 13225, 16576, 20664, 28140, 38122, 60025, 96100, 219258, 582550],
    [0, 3, 25, 64, 121, 203, 306, 420, 564, 715, 900, 1089, 1314, 1560, 1806, 2093, 2376, 2704, 3025, 3393, 3782, 4160, 4590,
    5005, 5476, 5929, 6360, 6930, 7612, 8695, 9850, 11718, 13865, 17424, 21682, 29498, 40100, 63001, 100965, 230400, 612306],
    [0, 10, 42, 90, 162, 248, 361, 484, 637, 812, 992, 1207, 1425, 1681, 1936, 2232, 2550, 2862, 3220, 3570, 3969, 4356, 4795,
    5256, 5700, 6162, 6601, 7225, 7921, 9072, 10302, 12265, 14520, 18225, 22801, 30976, 42025, 66177, 105950, 242064, 642803],
    [0, 3, 25, 64, 121, 203, 306, 420, 564, 715, 900, 1089, 1314, 1560, 1806, 2093, 2376, 2704, 3025, 3393, 3782, 4160, 4590,
    5005, 5476, 5929, 6440, 6847, 7525, 8281, 9457, 10816, 12882, 15252, 19113, 23870, 32490, 44100, 69432, 111222, 254016,
    674862],
    [0, 10, 42, 90, 162, 248, 361, 484, 637, 812, 992, 1207, 1425, 1681, 1936, 2232, 2550, 2862, 3220, 3570, 3969, 4356, 4795,
    5256, 5700, 6162, 6683, 7098, 7832, 8649, 9900, 11289, 13456, 15939, 20022, 25043, 34040, 46225, 72765, 116622, 266514,
    707701],
    [0, 3, 25, 64, 121, 203, 306, 420, 564, 715, 900, 1089, 1314, 1560, 1806, 2093, 2376, 2704, 3025, 3393, 3782, 4160, 4590,
    5005, 5476, 5929, 6440, 6930, 7353, 8145, 9025, 10353, 11772, 14042, 16705, 20952, 26163, 35626, 48400, 76314, 122325,
    279312, 742182],
    [0, 10, 42, 90, 162, 248, 361, 484, 637, 812, 992, 1207, 1425, 1681, 1936, 2232, 2550, 2862, 3220, 3570, 3969, 4356, 4795,
    5256, 5700, 6201, 6683, 7182, 7656, 8464, 9409, 10764, 12321, 14701, 17424, 21904, 27390, 37345, 50737, 79947, 128164,
    292681, 777924],
    [0, 3, 25, 64, 121, 203, 306, 420, 564, 715, 900, 1089, 1314, 1560, 1806, 2093, 2376, 2704, 3025, 3393, 3782, 4160, 4590,
    5005, 5476, 5929, 6440, 6930, 7439, 7965, 8836, 9801, 11236, 12882, 15376, 18225, 22952, 28645, 39006, 53130, 83665,
    134139, 306362, 814506],
    [0, 10, 42, 90, 162, 248, 361, 484, 637, 812, 992, 1207, 1425, 1681, 1936, 2232, 2550, 2862, 3220, 3570, 3969, 4356, 4795,
    5256, 5700, 6201, 6683, 7182, 7700, 8235, 9168, 10201, 11718, 13398, 16065, 19044, 23947, 30015, 40804, 55578, 87616,
    140437, 320639, 852390],
    [0, 3, 25, 64, 121, 203, 306, 420, 564, 715, 900, 1089, 1314, 1560, 1806, 2093, 2376, 2704, 3025, 3393, 3782, 4160, 4590,
    5005, 5476, 5929, 6440, 6972, 7439, 7965, 8556, 9555, 10609, 12210, 13983, 16770, 19881, 25043, 31329, 42642, 58081,
    91506, 146880, 335530, 892080],
    [0, 10, 42, 90, 162, 248, 361, 484, 637, 812, 992, 1207, 1425, 1681, 1936, 2232, 2550, 2862, 3220, 3570, 3969, 4356, 4795,
    5256, 5700, 6201, 6683, 7225, 7700, 8281, 8930, 9950, 11077, 12769, 14580, 17490, 20736, 26163, 32761, 44626, 60762,
    95790, 153468, 350760, 932673]]

theorem certs3_good : goods 76 certs3 = true := by decide +kernel

/-- sign change points, `91 ≤ N ≤ 100` -/
def certs4 : List (List ℕ) := [
    [0, 3, 25, 64, 121, 203, 306, 420, 564, 715, 900, 1089, 1314, 1560, 1806, 2093, 2376, 2704, 3025, 3393, 3782, 4160, 4590,
    5005, 5476, 5929, 6440, 6930, 7482, 7965, 8556, 9264, 10353, 11502, 13282, 15252, 18225, 21682, 27307, 34225, 46548,
    63378, 100014, 160400, 366630, 974662],
    [0, 10, 42, 90, 162, 248, 361, 484, 637, 812, 992, 1207, 1425, 1681, 1936, 2232, 2550, 2862, 3220, 3570, 3969, 4356, 4795,
    5256, 5700, 6201, 6683, 7225, 7744, 8235, 8883, 9604, 10764, 11990, 13806, 15876, 18975, 22575, 28476, 35626, 48620,
    66177, 104490, 167485, 382851, 1018081],
    [0, 3, 25, 64, 121, 203, 306, 420, 564, 715, 900, 1089, 1314, 1560, 1806, 2093, 2376, 2704, 3025, 3393, 3782, 4160, 4590,
    5005, 5476, 5929, 6440, 6972, 7482, 8010, 8510, 9216, 10000, 11183, 12488, 14400, 16512, 19810, 23562, 29670, 37249,
    50737, 69169, 109065, 174933, 399740, 1063476],
    [0, 10, 42, 90, 162, 248, 361, 484, 637, 812, 992, 1207, 1425, 1681, 1936, 2232, 2550, 2862, 3220, 3570, 3969, 4356, 4795,
    5256, 5700, 6201, 6683, 7225, 7744, 8281, 8789, 9506, 10353, 11610, 12996, 15006, 17226, 20592, 24570, 30976, 38809,
    52900, 72092, 113737, 182542, 417316, 1109862],
    [0, 3, 25, 64, 121, 203, 306, 420, 564, 715, 900, 1089, 1314, 1560, 1806, 2093, 2376, 2704, 3025, 3393, 3782, 4160, 4590,
    5005, 5476, 5929, 6440, 6972, 7482, 8010, 8602, 9072, 9900, 10764, 12045, 13456, 15562, 17889, 21462, 25600, 32220, 40401,
    55225, 75213, 118680, 190314, 435270, 1157776],
    [0, 10, 42, 90, 162, 248, 361, 484, 637, 812, 992, 1207, 1425, 1681, 1936, 2232, 2550, 2862, 3220, 3570, 3969, 4356, 4795,
    5256, 5700, 6201, 6683, 7225, 7744, 8281, 8883, 9360, 10251, 11130, 12544, 14042, 16192, 18632, 22350, 26650, 33580,
    42127, 57480, 78400, 123728, 198470, 453939, 1207251],
    [0, 3, 25, 64, 121, 203, 306, 420, 564, 715, 900, 1089, 1314, 1560, 1806, 2093, 2376, 2704, 3025, 3393, 3782, 4160, 4590,
    5005, 5476, 5929, 6440, 6972, 7482, 8055, 8602, 9168, 9702, 10609, 11556, 12996, 14580, 16835, 19390, 23256, 27722, 34969,
    43890, 59902, 81653, 128881, 206797, 473000, 1258323],
    [0, 10, 42, 90, 162, 248, 361, 484, 637, 812, 992, 1207, 1425, 1681, 1936, 2232, 2550, 2862, 3220, 3570, 3969, 4356, 4795,
    5256, 5700, 6201, 6683, 7225, 7744, 8326, 8883, 9457, 10050, 10972, 11990, 13514, 15129, 17490, 20164, 24180, 28815,
    36385, 45689, 62375, 84972, 134139, 215528, 492804, 1311025],
    [0, 3, 25, 64, 121, 203, 306, 420, 564, 715, 900, 1089, 1314, 1560, 1806, 2093, 2376, 2704, 3025, 3393, 3782, 4160, 4590,
    5005, 5476, 5929, 6440, 6972, 7482, 8055, 8602, 9168, 9751, 10353, 11395, 12432, 14042, 15687, 18157, 20952, 25122, 30015,
    37830, 47524, 64897, 88506, 139689, 224439, 513372, 1365392],
    [0, 10, 42, 90, 162, 248, 361, 484, 637, 812, 992, 1207, 1425, 1681, 1936, 2232, 2550, 2862, 3220, 3570, 3969, 4356, 4795,
    5256, 5700, 6201, 6683, 7225, 7744, 8326, 8883, 9457, 10050, 10712, 11772, 12882, 14520, 16320, 18906, 21756, 26163,
    31152, 39402, 49506, 67470, 92112, 145351, 233530, 534361, 1420864]]

theorem certs4_good : goods 91 certs4 = true := by decide +kernel

theorem goods_get {M : ℕ} {ls : List (List ℕ)} (h : goods M ls = true) : ∀ i < ls.length, ∃ l, good (M + i) l = true := by
  induction ls generalizing M with
  | nil => intro i hi; simp at hi
  | cons l ls ih =>
    simp only [goods, Bool.and_eq_true] at h
    intro i hi
    cases i with
    | zero => exact ⟨l, h.1⟩
    | succ i =>
      obtain ⟨l', hl⟩ := ih h.2 i (by simpa using hi)
      exact ⟨l', by rw [show M + (i + 1) = M + 1 + i by omega]; exact hl⟩

theorem good_exists {N : ℕ} (h2 : 2 ≤ N) (h100 : N ≤ 100) : ∃ l, good N l = true := by
  have key : ∀ (M : ℕ) (ls : List (List ℕ)), goods M ls = true → M ≤ N → N < M + ls.length → ∃ l, good N l = true := by
    intro M ls h h1 h3
    obtain ⟨l, hl⟩ := goods_get h (N - M) (by omega)
    exact ⟨l, by rwa [show M + (N - M) = N by omega] at hl⟩
  by_cases a : N ≤ 40
  · exact key 2 certs0 certs0_good (by omega) (by simp [certs0]; omega)
  by_cases b : N ≤ 60
  · exact key 41 certs1 certs1_good (by omega) (by simp [certs1]; omega)
  by_cases c : N ≤ 75
  · exact key 61 certs2 certs2_good (by omega) (by simp [certs2]; omega)
  by_cases d : N ≤ 90
  · exact key 76 certs3 certs3_good (by omega) (by simp [certs3]; omega)
  · exact key 91 certs4 certs4_good (by omega) (by simp [certs4]; omega)

end Aerokit.ChebCert
