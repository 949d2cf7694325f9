import Verif.Model.RK
import Mathlib.Algebra.Field.Rat

/-!
# The Butcher tableaus in `/repo/diffrax/_solver`

Transcribed literally: the formulas and decimal numbers of the source, read as exact rational numbers
(the code evaluates them in double precision). Only the coefficients that are needed by the methods
are given; lines refer to the file named in each section.
-/

namespace Verif
namespace Tab

/-- `np.polyval` -/
def polyval (coeffs : List ℚ) (x : ℚ) : ℚ := coeffs.foldl (fun acc c => acc * x + c) 0

def zipSub (a b : List ℚ) : List ℚ := List.zipWith (· - ·) a b

/-! ### `heun.py` -/

namespace Heun

/-- `_heun_tableau`, lines 12-17 -/
def tableau : Tableau ℚ where
  c := [1.0]
  bSol := [0.5, 0.5]
  bError := [0.5, (-0.5)]
  aLower := [[1.0]]
  c1 := 0

end Heun

/-! ### `midpoint.py` -/

namespace Midpoint

/-- `_midpoint_tableau`, lines 12-17 -/
def tableau : Tableau ℚ where
  c := [0.5]
  bSol := [0.0, 1.0]
  bError := [1.0, (-1.0)]
  aLower := [[0.5]]
  c1 := 0

end Midpoint

/-! ### `ralston.py` -/

namespace Ralston

/-- `_ralston_tableau`, lines 21-26 -/
def tableau : Tableau ℚ where
  c := [2 / 3]
  bSol := [0.25, 0.75]
  bError := [0.75, (-0.75)]
  aLower := [[2 / 3]]
  c1 := 0

end Ralston

/-! ### `bosh3.py` -/

namespace Bosh3

/-- `_bosh3_tableau`, lines 11-20 -/
def tableau : Tableau ℚ where
  c := [1 / 2, 3 / 4, 1.0]
  bSol := [2 / 9, 1 / 3, 4 / 9, 0.0]
  bError := [2 / 9 - 7 / 24, 1 / 3 - 1 / 4, 4 / 9 - 1 / 3, (-1) / 8]
  aLower := [[1 / 2],
      [0.0, 3 / 4],
      [2 / 9, 1 / 3, 4 / 9]]
  c1 := 0

end Bosh3

/-! ### `tsit5.py` -/

namespace Tsit5

/-- `_tsit5_tableau`, lines 18-100 -/
def tableau : Tableau ℚ where
  c := [161 / 1000, 327 / 1000, 9 / 10,
    0.9800255409045096857298102862870245954942137979563024768854764293221195950761080302604, 1.0,
    1.0]
  bSol := [0.9646076681806522951816731316512876333711995238157997181903319145764851595234062815396e-1,
    1 / 100,
    0.4798896504144995747752495322905965199130404621990332488332634944254542060153074523509,
    1.379008574103741893192274821856872770756462643091360525934940067397245698027561293331,
    (-3.290069515436080679901047585711363850115683290894936158531296799594813811049925401677),
    2.324710524099773982415355918398765796109060233222962411944060046314465391054716027841, 0.0]
  bError := [0.9646076681806522951816731316512876333711995238157997181903319145764851595234062815396e-1 - 0.9468075576583945807478876255758922856117527357724631226139574065785592789071067303271e-1,
    1 / 100 - 0.9183565540343253096776363936645313759813746240984095238905939532922955247253608687270e-2,
    0.4798896504144995747752495322905965199130404621990332488332634944254542060153074523509 - 0.4877705284247615707855642599631228241516691959761363774365216240304071651579571959813,
    1.379008574103741893192274821856872770756462643091360525934940067397245698027561293331 - 1.234297566930478985655109673884237654035539930748192848315425833500484878378061439761,
    (-3.290069515436080679901047585711363850115683290894936158531296799594813811049925401677) + 2.707712349983525454881109975059321670689605166938197378763992255714444407154902012702,
    2.324710524099773982415355918398765796109060233222962411944060046314465391054716027841 - 1.866628418170587035753719399566211498666255505244122593996591602841258328965767580089,
    (-1) / 66]
  aLower := [[161 / 1000],
      [(-0.8480655492356988544426874250230774675121177393430391537369234245294192976164141156943e-2),
        0.3354806554923569885444268742502307746751211773934303915373692342452941929761641411569],
      [2.897153057105493432130432594192938764924887287701866490314866693455023795137503079289,
        (-6.359448489975074843148159912383825625952700647415626703305928850207288721235210244366),
        4.362295432869581411017727318190886861027813359713760212991062156752264926097707165077],
      [5.325864828439256604428877920840511317836476253097040101202360397727981648835607691791,
        (-11.74888356406282787774717033978577296188744178259862899288666928009020615663593781589),
        7.495539342889836208304604784564358155658679161518186721010132816213648793440552049753,
        (-0.9249506636175524925650207933207191611349983406029535244034750452930469056411389539635e-1)],
      [5.861455442946420028659251486982647890394337666164814434818157239052507339770711679748,
        (-12.92096931784710929170611868178335939541780751955743459166312250439928519268343184452),
        8.159367898576158643180400794539253485181918321135053305748355423955009222648673734986,
        (-0.7158497328140099722453054252582973869127213147363544882721139659546372402303777878835e-1),
        (-0.2826905039406838290900305721271224146717633626879770007617876201276764571291579142206e-1)],
      [0.9646076681806522951816731316512876333711995238157997181903319145764851595234062815396e-1,
        1 / 100,
        0.4798896504144995747752495322905965199130404621990332488332634944254542060153074523509,
        1.379008574103741893192274821856872770756462643091360525934940067397245698027561293331,
        (-3.290069515436080679901047585711363850115683290894936158531296799594813811049925401677),
        2.324710524099773982415355918398765796109060233222962411944060046314465391054716027841]]
  c1 := 0

end Tsit5

/-! ### `dopri5.py` -/

namespace Dopri5

/-- `_dopri5_tableau`, lines 11-33 -/
def tableau : Tableau ℚ where
  c := [1 / 5, 3 / 10, 4 / 5, 8 / 9, 1.0, 1.0]
  bSol := [35 / 384, 0, 500 / 1113, 125 / 192, (-2187) / 6784, 11 / 84, 0]
  bError := [35 / 384 - 1951 / 21600, 0, 500 / 1113 - 22642 / 50085, 125 / 192 - 451 / 720,
    (-2187) / 6784 - (-12231) / 42400, 11 / 84 - 649 / 6300, (-1.0) / 60.0]
  aLower := [[1 / 5],
      [3 / 40, 9 / 40],
      [44 / 45, (-56) / 15, 32 / 9],
      [19372 / 6561, (-25360) / 2187, 64448 / 6561, (-212) / 729],
      [9017 / 3168, (-355) / 33, 46732 / 5247, 49 / 176, (-5103) / 18656],
      [35 / 384, 0, 500 / 1113, 125 / 192, (-2187) / 6784, 11 / 84]]
  c1 := 0

end Dopri5

/-! ### `dopri8.py` -/

namespace Dopri8

/-- `_dopri8_tableau`, lines 18-187 -/
def tableau : Tableau ℚ where
  c := [1 / 18, 1 / 12, 1 / 8, 5 / 16, 3 / 8, 59 / 400, 93 / 200, 5490023248 / 9719169821, 13 / 20,
    1201146811 / 1299019798, 1, 1, 1]
  bSol := [14005451 / 335480064, 0, 0, 0, 0, (-59238493) / 1068277825, 181606767 / 758867731,
    561292985 / 797845732, (-1041891430) / 1371343529, 760417239 / 1151165299,
    118820643 / 751138087, (-528747749) / 2220607170, 1 / 4, 0]
  bError := [14005451 / 335480064 - 13451932 / 455176623, 0, 0, 0, 0,
    (-59238493) / 1068277825 - (-808719846) / 976000145,
    181606767 / 758867731 - 1757004468 / 5645159321, 561292985 / 797845732 - 656045339 / 265891186,
    (-1041891430) / 1371343529 - (-3867574721) / 1518517206,
    760417239 / 1151165299 - 465885868 / 322736535, 118820643 / 751138087 - 53011238 / 667516719,
    (-528747749) / 2220607170 - 2 / 45, 1 / 4, 0]
  aLower := [[1 / 18],
      [1 / 48, 1 / 16],
      [1 / 32, 0, 3 / 32],
      [5 / 16, 0, (-75) / 64, 75 / 64],
      [3 / 80, 0, 0, 3 / 16, 3 / 20],
      [29443841 / 614563906, 0, 0, 77736538 / 692538347, (-28693883) / 1125000000,
        23124283 / 1800000000],
      [16016141 / 946692911, 0, 0, 61564180 / 158732637, 22789713 / 633445777,
        545815736 / 2771057229, (-180193667) / 1043307555],
      [39632708 / 573591083, 0, 0, (-433636366) / 683701615, (-421739975) / 2616292301,
        100302831 / 723423059, 790204164 / 839813087, 800635310 / 3783071287],
      [246121993 / 1340847787, 0, 0, (-37695042795) / 15268766246, (-309121744) / 1061227803,
        (-12992083) / 490766935, 6005943493 / 2108947869, 393006217 / 1396673457,
        123872331 / 1001029789],
      [(-1028468189) / 846180014, 0, 0, 8478235783 / 508512852, 1311729495 / 1432422823,
        (-10304129995) / 1701304382, (-48777925059) / 3047939560, 15336726248 / 1032824649,
        (-45442868181) / 3398467696, 3065993473 / 597172653],
      [185892177 / 718116043, 0, 0, (-3185094517) / 667107341, (-477755414) / 1098053517,
        (-703635378) / 230739211, 5731566787 / 1027545527, 5232866602 / 850066563,
        (-4093664535) / 808688257, 3962137247 / 1805957418, 65686358 / 487910083],
      [403863854 / 491063109, 0, 0, (-5068492393) / 434740067, (-411421997) / 543043805,
        652783627 / 914296604, 11173962825 / 925320556, (-13158990841) / 6184727034,
        3936647629 / 1978049680, (-160528059) / 685178525, 248638103 / 1413531060, 0],
      [14005451 / 335480064, 0, 0, 0, 0, (-59238493) / 1068277825, 181606767 / 758867731,
        561292985 / 797845732, (-1041891430) / 1371343529, 760417239 / 1151165299,
        118820643 / 751138087, (-528747749) / 2220607170, 1 / 4]]
  c1 := 0

end Dopri8

/-! ### `kvaerno3.py` -/

namespace Kvaerno3

/-- line 15 -/
def gamma : ℚ :=
  0.43586652150

/-- line 16 -/
def a21 : ℚ :=
  gamma

/-- line 17 -/
def a31 : ℚ :=
  ((-4) * gamma ^ 2 + 6 * gamma - 1) / (4 * gamma)

/-- line 18 -/
def a32 : ℚ :=
  ((-2) * gamma + 1) / (4 * gamma)

/-- line 19 -/
def a41 : ℚ :=
  (6 * gamma - 1) / (12 * gamma)

/-- line 20 -/
def a42 : ℚ :=
  (-1) / ((24 * gamma - 12) * gamma)

/-- line 21 -/
def a43 : ℚ :=
  ((-6) * gamma ^ 2 + 6 * gamma - 1) / (6 * gamma - 3)

/-- line 23 -/
def theta : ℚ :=
  1 / (2 * gamma)

/-- line 24 -/
def alpha21 : ℚ :=
  1.0

/-- line 25 -/
def alpha31 : ℚ :=
  1.0 - theta

/-- line 26 -/
def alpha32 : ℚ :=
  theta

/-- line 27 -/
def alpha41 : ℚ :=
  a31

/-- line 28 -/
def alpha42 : ℚ :=
  a32

/-- line 29 -/
def alpha43 : ℚ :=
  gamma

/-- `_kvaerno3_tableau`, lines 31-42 -/
def tableau : Tableau ℚ where
  c := [2 * gamma, 1.0, 1.0]
  bSol := [a41, a42, a43, gamma]
  bError := [a41 - a31, a42 - a32, a43 - gamma, gamma]
  aLower := [[a21],
      [a31, a32],
      [a41, a42, a43]]
  aDiagonal := some [0, gamma, gamma, gamma]
  aPredictor := [[alpha21],
      [alpha31, alpha32],
      [alpha41, alpha42, alpha43]]
  c1 := 0

end Kvaerno3

/-! ### `kvaerno4.py` -/

namespace Kvaerno4

/-- line 24 -/
def gamma : ℚ :=
  0.5728160625

/-- line 31 -/
def a21 : ℚ :=
  gamma

/-- line 32 -/
def a31 : ℚ :=
  (polyval [144, (-180), 81, (-15), 1] gamma) * gamma / (polyval [12, (-6), 1] gamma) ^ 2

/-- line 33 -/
def a32 : ℚ :=
  (polyval [(-36), 39, (-15), 2] gamma) * gamma / (polyval [12, (-6), 1] gamma) ^ 2

/-- line 34 -/
def a41 : ℚ :=
  (polyval [(-144), 396, (-330), 117, (-18), 1] gamma) / (12 * gamma ^ 2 * (polyval [12, (-9),
    2] gamma))

/-- line 35 -/
def a42 : ℚ :=
  (polyval [72, (-126), 69, (-15), 1] gamma) / (12 * gamma ^ 2 * (polyval [3, (-1)] gamma))

/-- line 36-38 -/
def a43 : ℚ :=
  (polyval [(-6), 6, (-1)] gamma) * (polyval [12, (-6),
    1] gamma) ^ 2 / (12 * gamma ^ 2 * (polyval [12, (-9), 2] gamma) * (polyval [3, (-1)] gamma))

/-- line 39 -/
def a51 : ℚ :=
  (polyval [288, (-312), 120, (-18), 1] gamma) / (48 * gamma ^ 2 * (polyval [12, (-9),
    2] gamma))

/-- line 40 -/
def a52 : ℚ :=
  (polyval [24, (-12), 1] gamma) / (48 * gamma ^ 2 * (polyval [3, (-1)] gamma))

/-- line 41-43 -/
def a53 : ℚ :=
  (-((polyval [12, (-6), 1] gamma) ^ 3)) / (48 * gamma ^ 2 * (polyval [3,
    (-1)] gamma) * (polyval [12, (-9), 2] gamma) * (polyval [6, (-6), 1] gamma))

/-- line 44 -/
def a54 : ℚ :=
  (polyval [(-24), 36, (-12), 1] gamma) / (polyval [24, (-24), 4] gamma)

/-- line 45 -/
def c2 : ℚ :=
  gamma + a21

/-- line 46 -/
def c3 : ℚ :=
  gamma + a31 + a32

/-- line 47 -/
def c4 : ℚ :=
  1.0

/-- line 48 -/
def c5 : ℚ :=
  1.0

/-- line 50 -/
def theta1 : ℚ :=
  c3 / c2

/-- line 51 -/
def theta2 : ℚ :=
  (c4 - c2) / (c3 - c2)

/-- line 52 -/
def alpha21 : ℚ :=
  1.0

/-- line 53 -/
def alpha31 : ℚ :=
  1 - theta1

/-- line 54 -/
def alpha32 : ℚ :=
  theta1

/-- line 55 -/
def alpha41 : ℚ :=
  0

/-- line 56 -/
def alpha42 : ℚ :=
  1 - theta2

/-- line 57 -/
def alpha43 : ℚ :=
  theta2

/-- line 58 -/
def alpha51 : ℚ :=
  a41

/-- line 59 -/
def alpha52 : ℚ :=
  a42

/-- line 60 -/
def alpha53 : ℚ :=
  a43

/-- line 61 -/
def alpha54 : ℚ :=
  gamma

/-- `_kvaerno4_tableau`, lines 63-80 -/
def tableau : Tableau ℚ where
  c := [c2, c3, c4, c5]
  bSol := [a51, a52, a53, a54, gamma]
  bError := [a51 - a41, a52 - a42, a53 - a43, a54 - gamma, gamma]
  aLower := [[a21],
      [a31, a32],
      [a41, a42, a43],
      [a51, a52, a53, a54]]
  aDiagonal := some [0, gamma, gamma, gamma, gamma]
  aPredictor := [[alpha21],
      [alpha31, alpha32],
      [alpha41, alpha42, alpha43],
      [alpha51, alpha52, alpha53, alpha54]]
  c1 := 0

end Kvaerno4

/-! ### `kvaerno5.py` -/

namespace Kvaerno5

/-- line 13 -/
def gamma : ℚ :=
  0.26

/-- line 14 -/
def a21 : ℚ :=
  gamma

/-- line 15 -/
def a31 : ℚ :=
  0.13

/-- line 16 -/
def a32 : ℚ :=
  0.84033320996790809

/-- line 17 -/
def a41 : ℚ :=
  0.22371961478320505

/-- line 18 -/
def a42 : ℚ :=
  0.47675532319799699

/-- line 19 -/
def a43 : ℚ :=
  (-0.06470895363112615)

/-- line 20 -/
def a51 : ℚ :=
  0.16648564323248321

/-- line 21 -/
def a52 : ℚ :=
  0.10450018841591720

/-- line 22 -/
def a53 : ℚ :=
  0.03631482272098715

/-- line 23 -/
def a54 : ℚ :=
  (-0.13090704451073998)

/-- line 24 -/
def a61 : ℚ :=
  0.13855640231268224

/-- line 25 -/
def a62 : ℚ :=
  0

/-- line 26 -/
def a63 : ℚ :=
  (-0.04245337201752043)

/-- line 27 -/
def a64 : ℚ :=
  0.02446657898003141

/-- line 28 -/
def a65 : ℚ :=
  0.61943039072480676

/-- line 29 -/
def a71 : ℚ :=
  0.13659751177640291

/-- line 30 -/
def a72 : ℚ :=
  0

/-- line 31 -/
def a73 : ℚ :=
  (-0.05496908796538376)

/-- line 32 -/
def a74 : ℚ :=
  (-0.04118626728321046)

/-- line 33 -/
def a75 : ℚ :=
  0.62993304899016403

/-- line 34 -/
def a76 : ℚ :=
  0.06962479448202728

/-- line 42 -/
def alpha21 : ℚ :=
  1.0

/-- line 43 -/
def alpha31 : ℚ :=
  (-1.366025403784441)

/-- line 44 -/
def alpha32 : ℚ :=
  2.3660254037844357

/-- line 45 -/
def alpha41 : ℚ :=
  (-0.19650552613122207)

/-- line 46 -/
def alpha42 : ℚ :=
  0.8113579546496623

/-- line 47 -/
def alpha43 : ℚ :=
  0.38514757148155954

/-- line 48 -/
def alpha51 : ℚ :=
  0.10375304369958693

/-- line 49 -/
def alpha52 : ℚ :=
  0.937994698066431

/-- line 50 -/
def alpha53 : ℚ :=
  (-0.04174774176601781)

/-- line 51 -/
def alpha61 : ℚ :=
  (-0.17281112873898072)

/-- line 52 -/
def alpha62 : ℚ :=
  0.6235784481025847

/-- line 53 -/
def alpha63 : ℚ :=
  0.5492326806363959

/-- line 54 -/
def alpha71 : ℚ :=
  a61

/-- line 55 -/
def alpha72 : ℚ :=
  a62

/-- line 56 -/
def alpha73 : ℚ :=
  a63

/-- line 57 -/
def alpha74 : ℚ :=
  a64

/-- line 58 -/
def alpha75 : ℚ :=
  a65

/-- line 59 -/
def alpha76 : ℚ :=
  gamma

/-- `_kvaerno5_tableau`, lines 61-86 -/
def tableau : Tableau ℚ where
  c := [0.52, 1.230333209967908, 0.8957659843500759, 0.43639360985864756, 1.0, 1.0]
  bSol := [a71, a72, a73, a74, a75, a76, gamma]
  bError := [a71 - a61, a72 - a62, a73 - a63, a74 - a64, a75 - a65, a76 - gamma, gamma]
  aLower := [[a21],
      [a31, a32],
      [a41, a42, a43],
      [a51, a52, a53, a54],
      [a61, a62, a63, a64, a65],
      [a71, a72, a73, a74, a75, a76]]
  aDiagonal := some [0, gamma, gamma, gamma, gamma, gamma, gamma]
  aPredictor := [[alpha21],
      [alpha31, alpha32],
      [alpha41, alpha42, alpha43],
      [alpha51, alpha52, alpha53, 0],
      [alpha61, alpha62, alpha63, 0, 0],
      [alpha71, alpha72, alpha73, alpha74, alpha75, alpha76]]
  c1 := 0

end Kvaerno5

/-! ### `kencarp3.py` -/

namespace KenCarp3

/-- line 31 -/
def gamma : ℚ :=
  1767732205903 / 4055673282236

/-- line 32-39 -/
def b_sol : List ℚ :=
  [1471266399579 / 7840856788654, (-4482444167858) / 7529755066697,
    11266239266428 / 11593286722821, gamma]

/-- line 40-47 -/
def b_sol_embedded : List ℚ :=
  [2756255671327 / 12835298489170, (-10771552573575) / 22201958757719,
    9247589265047 / 10645013368117, 2193209047091 / 5459859503100]

/-- line 48 -/
def b_error : List ℚ :=
  zipSub b_sol b_sol_embedded

/-- line 49 -/
def c : List ℚ :=
  [2 * gamma, 3 / 5, 1.0]

/-- line 50 -/
def c_ratio : ℚ :=
  (c.getD 1 0) / (c.getD 0 0)

/-- line 51 -/
def c_ratio2 : ℚ :=
  (c.getD 2 0) / (c.getD 0 0)

/-- `_explicit_tableau`, lines 53-68 -/
def explicit : Tableau ℚ where
  c := c
  bSol := b_sol
  bError := b_error
  aLower := [[2 * gamma],
      [5535828885825 / 10492691773637, 788022342437 / 10882634858940],
      [6485989280629 / 16251701735622, (-4246266847089) / 9704473918619,
        10755448449292 / 10357097424841]]
  c1 := 0

/-- `_implicit_tableau`, lines 70-90 -/
def implicit : Tableau ℚ where
  c := c
  bSol := b_sol
  bError := b_error
  aLower := [[gamma],
      [2746238789719 / 10658868560708, (-640167445237) / 6845629431997],
      b_sol.dropLast]
  aDiagonal := some [0, gamma, gamma, gamma]
  aPredictor := [[1.0],
      [1 - c_ratio, c_ratio],
      [1 - c_ratio2, c_ratio2, 0]]
  c1 := 0

end KenCarp3

/-! ### `kencarp4.py` -/

namespace KenCarp4

/-- line 19 -/
def gamma : ℚ :=
  0.25

/-- line 20 -/
def b_sol : List ℚ :=
  [82889 / 524892, 0, 15625 / 83664, 69875 / 102672, (-2260) / 8211, gamma]

/-- line 21-30 -/
def b_sol_embedded : List ℚ :=
  [4586570599 / 29645900160, 0, 178811875 / 945068544, 814220225 / 1159782912,
    (-3700637) / 11593932, 61727 / 225920]

/-- line 31 -/
def b_error : List ℚ :=
  zipSub b_sol b_sol_embedded

/-- line 32 -/
def c : List ℚ :=
  [0.5, 83 / 250, 31 / 50, 17 / 20, 1.0]

/-- line 33 -/
def c_ratio : ℚ :=
  (c.getD 1 0) / (c.getD 0 0)

/-- line 34 -/
def c_ratio2 : ℚ :=
  (c.getD 2 0) / (c.getD 0 0)

/-- line 35 -/
def c_ratio3 : ℚ :=
  (c.getD 3 0) / (c.getD 2 0)

/-- line 36 -/
def c_ratio4 : ℚ :=
  (c.getD 4 0) / (c.getD 3 0)

/-- `_explicit_tableau`, lines 38-70 -/
def explicit : Tableau ℚ where
  c := c
  bSol := b_sol
  bError := b_error
  aLower := [[0.5],
      [13861 / 62500, 6889 / 62500],
      [(-116923316275) / 2393684061468, (-2731218467317) / 15368042101831,
        9408046702089 / 11113171139209],
      [(-451086348788) / 2902428689909, (-2682348792572) / 7519795681897,
        12662868775082 / 11960479115383, 3355817975965 / 11060851509271],
      [647845179188 / 3216320057751, 73281519250 / 8382639484533, 552539513391 / 3454668386233,
        3354512671639 / 8306763924573, 4040 / 17871]]
  c1 := 0

/-- `_implicit_tableau`, lines 72-103 -/
def implicit : Tableau ℚ where
  c := c
  bSol := b_sol
  bError := b_error
  aLower := [[gamma],
      [8611 / 62500, (-1743) / 31250],
      [5012029 / 34652500, (-654441) / 2922500, 174375 / 388108],
      [15267082809 / 155376265600, (-71443401) / 120774400, 730878875 / 902184768,
        2285395 / 8070912],
      b_sol.dropLast]
  aDiagonal := some [0, gamma, gamma, gamma, gamma, gamma]
  aPredictor := [[1.0],
      [1 - c_ratio, c_ratio],
      [1 - c_ratio2, c_ratio2, 0],
      [1 - c_ratio3, 0, 0, c_ratio3],
      [1 - c_ratio4, 0, 0, 0, c_ratio4]]
  c1 := 0

end KenCarp4

/-! ### `kencarp5.py` -/

namespace KenCarp5

/-- line 19 -/
def gamma : ℚ :=
  41 / 200

/-- line 20-31 -/
def b_sol : List ℚ :=
  [(-872700587467) / 9133579230613, 0, 0, 22348218063261 / 9555858737531,
    (-1143369518992) / 8141816002931, (-39379526789629) / 19018526304540,
    32727382324388 / 42900044865799, gamma]

/-- line 32-43 -/
def b_sol_embedded : List ℚ :=
  [(-975461918565) / 9796059967033, 0, 0, 78070527104295 / 32432590147079,
    (-548382580838) / 3424219808633, (-33438840321285) / 15594753105479,
    3629800801594 / 4656183773603, 4035322873751 / 18575991585200]

/-- line 44 -/
def b_error : List ℚ :=
  zipSub b_sol b_sol_embedded

/-- line 45-55 -/
def c : List ℚ :=
  [41 / 100, 2935347310677 / 11292855782101, 1426016391358 / 7196633302097, 92 / 100, 24 / 100,
    3 / 5, 1.0]

/-- line 56 -/
def c_ratio : ℚ :=
  (c.getD 1 0) / (c.getD 0 0)

/-- line 57 -/
def c_ratio2 : ℚ :=
  (c.getD 2 0) / (c.getD 0 0)

/-- line 58 -/
def c_ratio3 : ℚ :=
  (c.getD 3 0) / (c.getD 0 0)

/-- line 59 -/
def c_ratio4 : ℚ :=
  (c.getD 4 0) / (c.getD 1 0)

/-- line 60 -/
def c_ratio5 : ℚ :=
  (c.getD 5 0) / (c.getD 3 0)

/-- line 61 -/
def c_ratio6 : ℚ :=
  (c.getD 6 0) / (c.getD 3 0)

/-- `_explicit_tableau`, lines 63-110 -/
def explicit : Tableau ℚ where
  c := c
  bSol := b_sol
  bError := b_error
  aLower := [[41 / 100],
      [367902744464 / 2072280473677, 677623207551 / 8224143866563],
      [1268023523408 / 10340822734521, 0, 1029933939417 / 13636558850479],
      [14463281900351 / 6315353703477, 0, 66114435211212 / 5879490589093,
        (-54053170152839) / 4284798021562],
      [14090043504691 / 34967701212078, 0, 15191511035443 / 11219624916014,
        (-18461159152457) / 12425892160975, (-281667163811) / 9011619295870],
      [19230459214898 / 13134317526959, 0, 21275331358303 / 2942455364971,
        (-38145345988419) / 4862620318723, (-1) / 8, (-1) / 8],
      [(-19977161125411) / 11928030595625, 0, (-40795976796054) / 6384907823539,
        177454434618887 / 12078138498510, 782672205425 / 8267701900261,
        (-69563011059811) / 9646580694205, 7356628210526 / 4942186776405]]
  c1 := 0

/-- `_implicit_tableau`, lines 112-164 -/
def implicit : Tableau ℚ where
  c := c
  bSol := b_sol
  bError := b_error
  aLower := [[gamma],
      [41 / 400, (-567603406766) / 11931857230679],
      [683785636431 / 9252920307686, 0, (-110385047103) / 1367015193373],
      [3016520224154 / 10081342136671, 0, 30586259806659 / 12414158314087,
        (-22760509404356) / 11113319521817],
      [218866479029 / 1489978393911, 0, 638256894668 / 5436446318841,
        (-1179710474555) / 5321154724896, (-60928119172) / 8023461067671],
      [1020004230633 / 5715676835656, 0, 25762820946817 / 25263940353407,
        (-2161375909145) / 9755907335909, (-211217309593) / 5846859502534,
        (-4269925059573) / 7827059040719],
      b_sol.dropLast]
  aDiagonal := some [0, gamma, gamma, gamma, gamma, gamma, gamma, gamma]
  aPredictor := [[1.0],
      [1 - c_ratio, c_ratio],
      [1 - c_ratio2, c_ratio2, 0],
      [1 - c_ratio3, c_ratio3, 0, 0],
      [1 - c_ratio4, 0, c_ratio4, 0, 0],
      [1 - c_ratio5, 0, 0, 0, c_ratio5, 0],
      [1 - c_ratio6, 0, 0, 0, c_ratio6, 0, 0]]
  c1 := 0

end KenCarp5

/-! ### `sil3.py` -/

namespace Sil3

/-- `_implicit_tableau`, lines 26-43 -/
def implicit : Tableau ℚ where
  c := [1 / 3, 2 / 3, 1]
  bSol := [3 / 8, 0, 3 / 8, 1 / 4]
  bError := [1 / 8, 0, (-3) / 8, 1 / 4]
  aLower := [[1 / 6],
      [1 / 3, 0],
      [3 / 8, 0, 3 / 8]]
  aDiagonal := some [0, 1 / 6, 1 / 3, 1 / 4]
  aPredictor := [[1.0],
      [(-1.0), 2.0],
      [(-1.0), 2.0, 0.0]]
  c1 := 0

/-- `_explicit_tableau`, lines 44-53 -/
def explicit : Tableau ℚ where
  c := [1 / 3, 2 / 3, 1]
  bSol := [0.5, (-0.5), 1, 0]
  bError := [0, 0.5, (-1), 0.5]
  aLower := [[1 / 3],
      [1 / 6, 0.5],
      [0.5, (-0.5), 1]]
  c1 := 0

end Sil3

end Tab
end Verif
