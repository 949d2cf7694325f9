import Verif.Model.RK
import Verif.Model.LocalInterp
import Mathlib.Data.Rat.Cast.Defs

/-!
# The `interpolation_cls` of the Runge-Kutta solvers in `/repo/diffrax/_solver`

What `interpolation_cls(t0=t0, t1=t1, **dense_info).evaluate(t)` computes from the `dense_info` of a step
(`y0`, `y1` and the stages `k`). Exact arithmetic in a field `K`; the numbers are transcribed literally and read
as exact rational numbers (the code rounds them to the precision in use). `evaluate(t0, t1)`
is left out.
-/

set_option maxRecDepth 100000

namespace Verif

variable {K V : Type} [Field K] [DecidableEq K] [AddCommGroup V] [Module K V]

/-- `interpolation_cls = LocalLinearInterpolation`: `euler.py` 27, `implicit_euler.py` 38, `euler_heun.py` 32,
`leapfrog_midpoint.py` 47, `semi_implicit_euler.py` 29, `reversible_heun.py` 39, `milstein.py` 47, 126, `srk.py`
268, `foster_langevin_srk.py` 127, `align.py` 76, `should.py` 85, `quicsort.py` 86. -/
def localLinearInterp (t0 t1 : K) (d : V × V) (t : K) : V :=
  (LocalLinear.mk t0 t1 d.1 d.2).evaluate t

/-- The buffer of the stages of one term: an array with `s` rows (`runge_kutta.py` 1165-1198). -/
def stageList (s : Nat) (k : Nat → V) : List V := (List.range s).map k

/-- `ThirdOrderHermitePolynomialInterpolation.from_k`: `heun.py` 37-39, `midpoint.py` 33-35, `ralston.py`
39-41, `bosh3.py` 34-36, `kvaerno3.py` 70-72, `kvaerno4.py` 111-113, `kvaerno5.py` 117-119. -/
def hermiteInterp (s : Nat) (t0 t1 : K) (d : RK.Dense 1 V) (t : K) : V :=
  (hermite3FromK t0 t1 d.y0 d.y1 (stageList s (d.ks 0))).evaluate t

/-- `Sil3.interpolation_cls` (`sil3.py` 87-94), with 4 stages. -/
def sil3Interp (t0 t1 : K) (d : RK.Dense 2 V) (t : K) : V :=
  let k0 := (stageList 4 (d.ks 0)).headD 0 + (stageList 4 (d.ks 1)).headD 0
  let k1 := (stageList 4 (d.ks 0)).getLastD 0 + (stageList 4 (d.ks 1)).getLastD 0
  (hermite3 t0 t1 d.y0 d.y1 k0 k1).evaluate t

/-- `_Dopri5Interpolation.c_mid` (`dopri5.py` 37-47). -/
def dopri5CMid : List ℚ :=
  [6025192743 / 30085553152 / 2,
   0,
   51252292925 / 65400821598 / 2,
   (-2691868925) / 45128329728 / 2,
   187940372067 / 1594534317056 / 2,
   (-1776094331) / 19743644256 / 2,
   11237099 / 235043384 / 2]

/-- `_Dopri5Interpolation` (`dopri5.py` 36-47, 94-96). -/
def dopri5Interp (t0 t1 : K) (d : RK.Dense 1 V) (t : K) : V :=
  (quartic (dopri5CMid.map fun q : ℚ => (q : K)) t0 t1 d.y0 d.y1 (stageList 7 (d.ks 0))).evaluate t

/-- `b1`, ..., `b7` in `_Tsit5Interpolation.evaluate` (`tsit5.py` 126-151). -/
def tsit5Coeffs (t : K) : List K :=
  [(((-1.0530884977290216 : ℚ) : K)) * t * (t - ((1.3299890189751412 : ℚ) : K))
     * (t ^ 2 - ((1.4364028541716351 : ℚ) : K) * t + ((0.7139816917074209 : ℚ) : K)),
   ((0.1017 : ℚ) : K) * t ^ 2 * (t ^ 2 - ((2.1966568338249754 : ℚ) : K) * t + ((1.2949852507374631 : ℚ) : K)),
   ((2.490627285651252793 : ℚ) : K) * t ^ 2
     * (t ^ 2 - ((2.38535645472061657 : ℚ) : K) * t + ((1.57803468208092486 : ℚ) : K)),
   ((-16.54810288924490272 : ℚ) : K) * (t - ((1.21712927295533244 : ℚ) : K))
     * (t - ((0.61620406037800089 : ℚ) : K)) * t ^ 2,
   ((47.37952196281928122 : ℚ) : K) * (t - ((1.203071208372362603 : ℚ) : K))
     * (t - ((0.658047292653547382 : ℚ) : K)) * t ^ 2,
   ((-34.87065786149660974 : ℚ) : K) * (t - ((1.2 : ℚ) : K)) * (t - ((0.666666666666666667 : ℚ) : K)) * t ^ 2,
   ((2.5 : ℚ) : K) * (t - 1) * (t - ((0.6 : ℚ) : K)) * t ^ 2]

/-- `_Tsit5Interpolation.evaluate` (`tsit5.py` 116-156). -/
def tsit5Interp (t0 t1 : K) (d : RK.Dense 1 V) (t : K) : V :=
  d.y0 + treeDot (tsit5Coeffs (linearRescale t0 t t1)) (d.ks 0)

/-- `polyval` of each row, times `t` (`dopri8.py` 189, 301 and `kencarp3.py` 120). -/
def rowCoeffs (rows : List (List ℚ)) (t : K) : List K :=
  rows.map fun row => polyval (row.map fun q : ℚ => (q : K)) t * t

/-- `_Dopri8Interpolation.eval_coeffs` (`dopri8.py` 205-292). -/
def dopri8Coeffs : List (List ℚ) := [
    [(-6.3448349392860401388), 22.1396504998094068976, (-30.0610568289666450593),
     19.9990069333683970610, (-6.6910181737837595697), 1],
    [0, 0, 0, 0, 0, 0],
    [0, 0, 0, 0, 0, 0],
    [0, 0, 0, 0, 0, 0],
    [0, 0, 0, 0, 0, 0],
    [(-39.6107919852202505218), 116.4422149550342161651, (-121.4999627731334642623),
     52.2273532792945524050, (-7.6142658045872677172), 0],
    [20.3761213808791436958, (-67.1451318825957197185), 83.1721004639847717481,
     (-46.8919164181093621583), 10.7281392630428866124, 0],
    [7.3347098826795362023, (-16.5672243527496524646), 9.5724507555993664382, (-0.1890893225010595467),
     0.5526637063753648783, 0],
    [32.8801774352459155182, (-89.9916014847245016028), 87.8406057677205645007,
     (-35.7075975946222072821), 4.2186562625665153803, 0],
    [(-10.1588990526426760954), 22.6237489648532849093, (-17.4152107770762969005),
     6.2736448083240352160, (-0.6627209125361597559), 0],
    [(-12.5401268098782561200), 32.2362340167355370113, (-28.5903289514790976966),
     10.3160881272450748458, (-1.2636789001135462218), 0],
    [29.5553001484516038033, (-82.1020315488359848644), 81.6630950584341412934,
     (-34.7650769866611817349), 5.4106037898590422230, 0],
    [(-41.7923486424390588923), 116.2662185791119533462, (-114.9375291377009418170),
     47.7457971078225540396, (-7.0321379067945741781), 0],
    [20.3006925822100825485, (-53.9020777466385396792), 50.2558364226176017553,
     (-19.0082099341608028453), 2.3537586759714983486, 0]]

/-- `_Dopri8Interpolation.evaluate` (`dopri8.py` 294-303). -/
def dopri8Interp (t0 t1 : K) (d : RK.Dense 1 V) (t : K) : V :=
  d.y0 + treeDot (rowCoeffs dopri8Coeffs (linearRescale t0 t t1)) (d.ks 0)

/-- `_KenCarp3Interpolation.coeffs` (`kencarp3.py` 126-133). -/
def kencarp3Coeffs : List (List ℚ) := [
    [(-215264564351 / 13552729205753), 4655552711362 / 22874653954995],
    [17870216137069 / 13817060693119, (-18682724506714 / 9892148508045)],
    [(-28141676662227 / 17317692491321), 34259539580243 / 13192909600954],
    [2508943948391 / 7218656332882, 584795268549 / 6622622206610]]

/-- `_KenCarp4Interpolation.coeffs` (`kencarp4.py` 107-136). -/
def kencarp4Coeffs : List (List ℚ) := [
    [6818779379841 / 7100303317025, (-54480133 / 30881146), 6943876665148 / 7220017795957],
    [0.0, 0.0, 0.0],
    [2173542590792 / 12501825683035, (-11436875 / 14766696), 7640104374378 / 9702883013639],
    [(-31592104683404 / 5083833661969), 174696575 / 18121608, (-20649996744609 / 7521556579894)],
    [61146701046299 / 7138195549469, (-12120380 / 966161), 8854892464581 / 2390941311638],
    [(-17219254887155 / 4939391667607), 3843 / 706, (-11397109935349 / 6675773540249)]]

/-- `_KenCarp5Interpolation.coeffs` (`kencarp5.py` 168-203). -/
def kencarp5Coeffs : List (List ℚ) := [
    [(-9257016797708 / 5021505065439), 43486358583215 / 12773830924787,
     (-17674230611817 / 10670229744614)],
    [0, 0, 0],
    [0, 0, 0],
    [26096422576131 / 11239449250142, (-91478233927265 / 11067650958493), 65168852399939 / 7868540260826],
    [92396832856987 / 20362823103730, (-79368583304911 / 10890268929626), 15494834004392 / 5936557850923],
    [30029262896817 / 10175596800299, (-12239297817655 / 9152339842473),
     (-99329723586156 / 26959484932159)],
    [(-26136350496073 / 3983972220547), 115839755401235 / 10719374521269,
     (-19024464361622 / 5461577185407)],
    [(-5289405421727 / 3760307252460), 5843115559534 / 2180450260947, (-6511271360970 / 6095937251113)]]

/-- `KenCarpInterpolation.evaluate` (`kencarp3.py` 110-122); the terms are the explicit and the implicit
one. -/
def kencarpInterp (rows : List (List ℚ)) (t0 t1 : K) (d : RK.Dense 2 V) (t : K) : V :=
  d.y0 + treeDot (rowCoeffs rows (linearRescale t0 t t1)) (fun i => d.ks 0 i + d.ks 1 i)

end Verif
