import Verif.Lemmas.FloatFit
import Verif.Props.LeastSquares

/-!
The fit of the twelve points `(0, 0), (1, 0), …, (11, 0)` in floating point, computed step by step. The matrices are intermediate
results; that they are what the computation gives is checked by the kernel.
-/

set_option Elab.async false

namespace PathLib
open PathLib.CurveFitting (basisEntry)

/-- The points `(0, 0), (1, 0), …, (11, 0)`. -/
def twelve : List (Pt ℚ) := (List.range 12).map fun (i : ℕ) => ((i : ℚ), (0 : ℚ))

namespace Twelve

/-- The powers of the time values. -/
def powers : Mat ℚ :=
  [[1, 1, 1, 1, 1, 1, 1, 1, 1, 1, 1, 1],
    [0, 3275345183542179 / 36028797018963968, 3275345183542179 / 18014398509481984, 1228254443828317 / 4503599627370496, 3275345183542179 / 9007199254740992, 8188362958855447 / 18014398509481984, 1228254443828317 / 2251799813685248, 5731854071198813 / 9007199254740992, 3275345183542179 / 4503599627370496, 7369526662969903 / 9007199254740992, 8188362958855447 / 9007199254740992, 1],
    [0, 297758653049289 / 36028797018963968, 297758653049289 / 9007199254740992, 5359655754887201 / 72057594037927936, 297758653049289 / 2251799813685248, 232623947694757 / 1125899906842624, 5359655754887201 / 18014398509481984, 1823771749926895 / 4503599627370496, 297758653049289 / 562949953421312, 6029612724248103 / 9007199254740992, 232623947694757 / 281474976710656, 1],
    [0, 3464827962755363 / 4611686018427387904, 3464827962755363 / 576460752303423488, 5846897187149673 / 288230376151711744, 3464827962755363 / 72057594037927936, 6767242114756567 / 72057594037927936, 5846897187149673 / 36028797018963968, 4642328090723005 / 18014398509481984, 3464827962755363 / 9007199254740992, 4933319501657539 / 9007199254740992, 6767242114756567 / 9007199254740992, 1],
    [0, 5039749764007801 / 73786976294838206464, 5039749764007801 / 4611686018427387904, 6378433295072371 / 1152921504606846976, 5039749764007801 / 288230376151711744, 3076019143071167 / 72057594037927936, 6378433295072371 / 72057594037927936, 2954208785005549 / 18014398509481984, 5039749764007801 / 18014398509481984, 8072704639075973 / 18014398509481984, 3076019143071167 / 4503599627370496, 1],
    [0, 3665272555642037 / 590295810358705651712, 3665272555642037 / 18446744073709551616, 1739572716837919 / 1152921504606846976, 3665272555642037 / 576460752303423488, 1398190519577803 / 72057594037927936, 1739572716837919 / 36028797018963968, 1879951045003531 / 18014398509481984, 3665272555642037 / 18014398509481984, 6604940159243979 / 18014398509481984, 1398190519577803 / 2251799813685248, 1],
    [0, 5331305535479327 / 9444732965739290427392, 5331305535479327 / 147573952589676412928, 3795431382191823 / 9223372036854775808, 5331305535479327 / 2305843009213693952, 2542164581050551 / 288230376151711744, 3795431382191823 / 144115188075855872, 4785329932736261 / 72057594037927936, 5331305535479327 / 36028797018963968, 2702020974236173 / 9007199254740992, 2542164581050551 / 4503599627370496, 1],
    [0, 1938656558356119 / 37778931862957161709568, 1938656558356119 / 295147905179352825856, 1035117649688679 / 9223372036854775808, 1938656558356119 / 2305843009213693952, 4622117420091911 / 1152921504606846976, 1035117649688679 / 72057594037927936, 6090419914391605 / 144115188075855872, 1938656558356119 / 18014398509481984, 276343054183245 / 1125899906842624, 4622117420091911 / 9007199254740992, 1],
    [0, 5639728169763255 / 1208925819614629174706176, 5639728169763255 / 4722366482869645213696, 2258438508411663 / 73786976294838206464, 5639728169763255 / 18446744073709551616, 8403849854712565 / 4611686018427387904, 2258438508411663 / 288230376151711744, 7751443527407497 / 288230376151711744, 5639728169763255 / 72057594037927936, 1808790900108513 / 9007199254740992, 8403849854712565 / 18014398509481984, 1],
    [0, 8203240974201099 / 19342813113834066795298816, 8203240974201099 / 37778931862957161709568, 4927502200170901 / 590295810358705651712, 8203240974201099 / 73786976294838206464, 7639863504284149 / 9223372036854775808, 4927502200170901 / 1152921504606846976, 4932736790168407 / 288230376151711744, 8203240974201099 / 144115188075855872, 5919679309446043 / 36028797018963968, 7639863504284149 / 18014398509481984, 1],
    [0, 2982996717891309 / 77371252455336267181195264, 2982996717891309 / 75557863725914323419136, 2687728472820491 / 1180591620717411303424, 2982996717891309 / 73786976294838206464, 868166307305017 / 2305843009213693952, 2687728472820491 / 1152921504606846976, 3139014321016259 / 288230376151711744, 2982996717891309 / 72057594037927936, 4843373980455853 / 36028797018963968, 868166307305017 / 2251799813685248, 1],
    [0, 4338904316932813 / 1237940039285380274899124224, 4338904316932813 / 604462909807314587353088, 2932067424895081 / 4722366482869645213696, 4338904316932813 / 295147905179352825856, 6313936780400123 / 36893488147419103232, 2932067424895081 / 2305843009213693952, 3995109135838875 / 576460752303423488, 4338904316932813 / 144115188075855872, 495345066182985 / 4503599627370496, 6313936780400123 / 18014398509481984, 1]]

/-- The product of the powers and their transpose. -/
def product : Mat ℚ :=
  [[12, 6, 2354154350670941 / 562949953421312, 3684763331484951 / 1125899906842624, 3074019730628171 / 1125899906842624, 1334838507135733 / 562949953421312, 2383257686335953 / 1125899906842624, 8682091995128761 / 4503599627370496, 2006892993381871 / 1125899906842624, 7510468427249023 / 4503599627370496, 3546612729176413 / 2251799813685248, 6750797912112813 / 4503599627370496],
    [6, 2354154350670941 / 562949953421312, 3684763331484951 / 1125899906842624, 3074019730628171 / 1125899906842624, 1334838507135733 / 562949953421312, 2383257686335953 / 1125899906842624, 8682091995128761 / 4503599627370496, 2006892993381871 / 1125899906842624, 7510468427249023 / 4503599627370496, 3546612729176413 / 2251799813685248, 6750797912112813 / 4503599627370496, 6465839929383871 / 4503599627370496],
    [2354154350670941 / 562949953421312, 3684763331484951 / 1125899906842624, 3074019730628171 / 1125899906842624, 1334838507135733 / 562949953421312, 2383257686335953 / 1125899906842624, 8682091995128761 / 4503599627370496, 2006892993381871 / 1125899906842624, 7510468427249023 / 4503599627370496, 3546612729176413 / 2251799813685248, 6750797912112813 / 4503599627370496, 6465839929383871 / 4503599627370496, 3112977790609783 / 2251799813685248],
    [3684763331484951 / 1125899906842624, 3074019730628171 / 1125899906842624, 1334838507135733 / 562949953421312, 2383257686335953 / 1125899906842624, 8682091995128761 / 4503599627370496, 2006892993381871 / 1125899906842624, 7510468427249023 / 4503599627370496, 3546612729176413 / 2251799813685248, 6750797912112813 / 4503599627370496, 6465839929383871 / 4503599627370496, 3112977790609783 / 2251799813685248, 3011024638393531 / 2251799813685248],
    [3074019730628171 / 1125899906842624, 1334838507135733 / 562949953421312, 2383257686335953 / 1125899906842624, 8682091995128761 / 4503599627370496, 2006892993381871 / 1125899906842624, 7510468427249023 / 4503599627370496, 3546612729176413 / 2251799813685248, 6750797912112813 / 4503599627370496, 6465839929383871 / 4503599627370496, 3112977790609783 / 2251799813685248, 3011024638393531 / 2251799813685248, 5847294790102245 / 4503599627370496],
    [1334838507135733 / 562949953421312, 2383257686335953 / 1125899906842624, 8682091995128761 / 4503599627370496, 2006892993381871 / 1125899906842624, 7510468427249023 / 4503599627370496, 3546612729176413 / 2251799813685248, 6750797912112813 / 4503599627370496, 6465839929383871 / 4503599627370496, 3112977790609783 / 2251799813685248, 3011024638393531 / 2251799813685248, 5847294790102245 / 4503599627370496, 5696468176624111 / 4503599627370496],
    [2383257686335953 / 1125899906842624, 8682091995128761 / 4503599627370496, 2006892993381871 / 1125899906842624, 7510468427249023 / 4503599627370496, 3546612729176413 / 2251799813685248, 6750797912112813 / 4503599627370496, 6465839929383871 / 4503599627370496, 3112977790609783 / 2251799813685248, 3011024638393531 / 2251799813685248, 5847294790102245 / 4503599627370496, 5696468176624111 / 4503599627370496, 2782751531752757 / 2251799813685248],
    [8682091995128761 / 4503599627370496, 2006892993381871 / 1125899906842624, 7510468427249023 / 4503599627370496, 3546612729176413 / 2251799813685248, 6750797912112813 / 4503599627370496, 6465839929383871 / 4503599627370496, 3112977790609783 / 2251799813685248, 6022049276787063 / 4503599627370496, 2923647395051123 / 2251799813685248, 5696468176624111 / 4503599627370496, 2782751531752757 / 2251799813685248, 2725593191506699 / 2251799813685248],
    [2006892993381871 / 1125899906842624, 7510468427249023 / 4503599627370496, 3546612729176413 / 2251799813685248, 6750797912112813 / 4503599627370496, 6465839929383871 / 4503599627370496, 3112977790609783 / 2251799813685248, 3011024638393531 / 2251799813685248, 2923647395051123 / 2251799813685248, 5696468176624111 / 4503599627370496, 2782751531752757 / 2251799813685248, 2725593191506699 / 2251799813685248, 668868173853333 / 562949953421312],
    [7510468427249023 / 4503599627370496, 3546612729176413 / 2251799813685248, 6750797912112813 / 4503599627370496, 6465839929383871 / 4503599627370496, 3112977790609783 / 2251799813685248, 3011024638393531 / 2251799813685248, 5847294790102245 / 4503599627370496, 5696468176624111 / 4503599627370496, 2782751531752757 / 2251799813685248, 5451186383013397 / 4503599627370496, 668868173853333 / 562949953421312, 5262695537934765 / 4503599627370496],
    [3546612729176413 / 2251799813685248, 6750797912112813 / 4503599627370496, 6465839929383871 / 4503599627370496, 3112977790609783 / 2251799813685248, 3011024638393531 / 2251799813685248, 5847294790102245 / 4503599627370496, 5696468176624111 / 4503599627370496, 2782751531752757 / 2251799813685248, 2725593191506699 / 2251799813685248, 668868173853333 / 562949953421312, 5262695537934765 / 4503599627370496, 2592364915432625 / 2251799813685248],
    [6750797912112813 / 4503599627370496, 6465839929383871 / 4503599627370496, 3112977790609783 / 2251799813685248, 3011024638393531 / 2251799813685248, 5847294790102245 / 4503599627370496, 5696468176624111 / 4503599627370496, 2782751531752757 / 2251799813685248, 2725593191506699 / 2251799813685248, 668868173853333 / 562949953421312, 5262695537934765 / 4503599627370496, 2592364915432625 / 2251799813685248, 1278909262708701 / 1125899906842624]]

/-- The product after 3 passes of `matrixInvert`. -/
def left3 : Mat ℚ :=
  [[1, 0, 0, 1339913938721751 / 36028797018963968, 2401404201864999 / 36028797018963968, 3124356586747969 / 36028797018963968, 1802707011041923 / 18014398509481984, 3926210496899347 / 36028797018963968, 4141597555020185 / 36028797018963968, 4286985295846391 / 36028797018963968, 4385261718589613 / 36028797018963968, 2225707744460737 / 18014398509481984],
    [0, 1, 0, -2586778298365659 / 4503599627370496, -4035693172578717 / 4503599627370496, -4865844824597715 / 4503599627370496, -2675807080992285 / 2251799813685248, -1409629942421949 / 1125899906842624, -5806735377780581 / 4503599627370496, -2951124866721091 / 2251799813685248, -372025264581451 / 281474976710656, -186686016039089 / 140737488355328],
    [0, 0, 1, 3377699720527853 / 2251799813685248, 7869335830588313 / 4503599627370496, 4207170254022307 / 2251799813685248, 8664794380986525 / 4503599627370496, 4378943951597519 / 2251799813685248, 8765466673575819 / 4503599627370496, 8726703863596909 / 4503599627370496, 270738682801063 / 140737488355328, 8588941029143319 / 4503599627370496],
    [0, 0, 0, 117783569369249 / 18014398509481984, 471134277476971 / 36028797018963968, 41437860435803 / 2251799813685248, 405590803613079 / 18014398509481984, 462052862713235 / 18014398509481984, 505111024381701 / 18014398509481984, 538144523632203 / 18014398509481984, 563689866897457 / 18014398509481984, 145903380062439 / 4503599627370496],
    [0, 0, 0, 29445892342311 / 2251799813685248, 479045229532199 / 18014398509481984, 341391573555463 / 9007199254740992, 843826914636647 / 18014398509481984, 242285867719979 / 4503599627370496, 8332546902259 / 140737488355328, 1142675367389615 / 18014398509481984, 1202566414102591 / 18014398509481984, 1250076532846207 / 18014398509481984],
    [0, 0, 0, 82875720871607 / 4503599627370496, 341391573555463 / 9007199254740992, 491476190793089 / 9007199254740992, 306156411204269 / 4503599627370496, 1415837404940425 / 18014398509481984, 391696938071927 / 4503599627370496, 843213607440869 / 9007199254740992, 890936290867313 / 9007199254740992, 1858591481594279 / 18014398509481984],
    [0, 0, 0, 405590803613087 / 18014398509481984, 105478364329581 / 2251799813685248, 306156411204269 / 4503599627370496, 1535824715342923 / 18014398509481984, 1785413986387647 / 18014398509481984, 1984943687782605 / 18014398509481984, 536240189218833 / 4503599627370496, 1137024858301553 / 9007199254740992, 594729918679837 / 4503599627370496],
    [0, 0, 0, 115513215678311 / 4503599627370496, 484571735439959 / 9007199254740992, 707918702470213 / 9007199254740992, 1785413986387651 / 18014398509481984, 2085191110578017 / 18014398509481984, 1163684144494607 / 9007199254740992, 630875921942725 / 4503599627370496, 670800454864829 / 4503599627370496, 2814081820029341 / 18014398509481984],
    [0, 0, 0, 505111024381703 / 18014398509481984, 533283001744575 / 9007199254740992, 195848469035963 / 2251799813685248, 1984943687782601 / 18014398509481984, 290921036123651 / 2251799813685248, 2606458832892861 / 18014398509481984, 1417186104661937 / 9007199254740992, 755349773428889 / 4503599627370496, 3175810689073579 / 18014398509481984],
    [0, 0, 0, 269072261816105 / 9007199254740992, 1142675367389617 / 18014398509481984, 421606803720435 / 4503599627370496, 1072480378437667 / 9007199254740992, 1261751843885449 / 9007199254740992, 1417186104661941 / 9007199254740992, 386255066599039 / 2251799813685248, 1650622481955955 / 9007199254740992, 869178865553345 / 4503599627370496],
    [0, 0, 0, 140922466724367 / 4503599627370496, 300641603525649 / 4503599627370496, 1781872581734629 / 18014398509481984, 2274049716603109 / 18014398509481984, 670800454864829 / 4503599627370496, 755349773428891 / 4503599627370496, 3301244963911911 / 18014398509481984, 3533751010899853 / 18014398509481984, 3727963645776633 / 18014398509481984],
    [0, 0, 0, 583613520249765 / 18014398509481984, 625038266423103 / 9007199254740992, 232323935199285 / 2251799813685248, 2378919674719349 / 18014398509481984, 1407040910014669 / 9007199254740992, 3175810689073585 / 18014398509481984, 3476715462213375 / 18014398509481984, 3727963645776629 / 18014398509481984, 3938814320563207 / 18014398509481984]]

/-- The matrix that becomes the inverse after 3 passes. -/
def right3 : Mat ℚ :=
  [[153883297707199 / 281474976710656, -2347686893663595 / 1125899906842624, 3742689250768047 / 2251799813685248, 0, 0, 0, 0, 0, 0, 0, 0, 0],
    [-2347686893663595 / 1125899906842624, 12991756898529 / 1099511627776, -1543859315941819 / 140737488355328, 0, 0, 0, 0, 0, 0, 0, 0, 0],
    [3742689250768047 / 2251799813685248, -1543859315941819 / 140737488355328, 1543859315941819 / 140737488355328, 0, 0, 0, 0, 0, 0, 0, 0, 0],
    [-334978484680441 / 9007199254740992, 2586778298365669 / 4503599627370496, -1688849860263929 / 1125899906842624, 1, 0, 0, 0, 0, 0, 0, 0, 0],
    [-2401404201864999 / 36028797018963968, 4035693172578717 / 4503599627370496, -7869335830588313 / 4503599627370496, 0, 1, 0, 0, 0, 0, 0, 0, 0],
    [-3124356586747967 / 36028797018963968, 2432922412298857 / 2251799813685248, -8414340508044613 / 4503599627370496, 0, 0, 1, 0, 0, 0, 0, 0, 0],
    [-1802707011041923 / 18014398509481984, 2675807080992285 / 2251799813685248, -2166198595246631 / 1125899906842624, 0, 0, 0, 1, 0, 0, 0, 0, 0],
    [-1963105248449669 / 18014398509481984, 2819259884843895 / 2251799813685248, -1094735987899379 / 562949953421312, 0, 0, 0, 0, 1, 0, 0, 0, 0],
    [-2070798777510095 / 18014398509481984, 2903367688890293 / 2251799813685248, -547841667098489 / 281474976710656, 0, 0, 0, 0, 0, 1, 0, 0, 0],
    [-2143492647923191 / 18014398509481984, 5902249733442175 / 4503599627370496, -8726703863596903 / 4503599627370496, 0, 0, 0, 0, 0, 0, 1, 0, 0],
    [-4385261718589607 / 36028797018963968, 2976202116651605 / 2251799813685248, -8663637849634011 / 4503599627370496, 0, 0, 0, 0, 0, 0, 0, 1, 0],
    [-2225707744460737 / 18014398509481984, 186686016039089 / 140737488355328, -8588941029143319 / 4503599627370496, 0, 0, 0, 0, 0, 0, 0, 0, 1]]

/-- The product after 6 passes of `matrixInvert`. -/
def left6 : Mat ℚ :=
  [[1, 0, 0, 0, 0, 0, -234285887694135 / 1152921504606846976, -197832314253425 / 288230376151711744, -205130476068327 / 144115188075855872, -676880810845595 / 288230376151711744, -488848669854155 / 144115188075855872, -1295820456455665 / 288230376151711744],
    [0, 1, 0, 0, 0, 0, 602004910007811 / 18014398509481984, 237371737776205 / 2251799813685248, 936715400729385 / 4503599627370496, 1488358763080367 / 4503599627370496, 2087640569243787 / 4503599627370496, 2702892118300695 / 4503599627370496],
    [0, 0, 1, 0, 0, 0, -916080446420169 / 2251799813685248, -2771434093336469 / 2251799813685248, -2656528076581265 / 1125899906842624, -4133291481116935 / 1125899906842624, -2852960213978329 / 562949953421312, -7296079231787831 / 1125899906842624],
    [0, 0, 0, 1, 0, 0, 122920608716225 / 70368744177664, 348773516304851 / 70368744177664, 1284319329181807 / 140737488355328, 1943673740007385 / 140737488355328, 2629753747634971 / 140737488355328, 1655914657825889 / 70368744177664],
    [0, 0, 0, 0, 1, 0, -3798114636746847 / 1125899906842624, -2396433346340151 / 281474976710656, -2069607455172189 / 140737488355328, -3008772228778915 / 140737488355328, -247518045388317 / 8796093022208, -2444423319734271 / 70368744177664],
    [0, 0, 0, 0, 0, 1, 6755399440928595 / 2251799813685248, 399889513148429 / 70368744177664, 4915165073121275 / 562949953421312, 6703677953532375 / 562949953421312, 4238300370385499 / 281474976710656, 636275640190921 / 35184372088832],
    [0, 0, 0, 0, 0, 0, 1765875160641 / 1152921504606846976, 24722252253033 / 4611686018427387904, 52849773402995 / 4611686018427387904, 178980933631857 / 9223372036854775808, 132176149875683 / 4611686018427387904, 178584319939815 / 4611686018427387904],
    [0, 0, 0, 0, 0, 0, 98889009021887 / 18446744073709551616, 173752536199761 / 9223372036854775808, 93183873868951 / 2305843009213693952, 158267253766583 / 2305843009213693952, 117188584204237 / 1152921504606846976, 317401916663267 / 2305843009213693952],
    [0, 0, 0, 0, 0, 0, 105699546817693 / 9223372036854775808, 186367747745463 / 4611686018427387904, 200507785239711 / 2305843009213693952, 341456292882015 / 2305843009213693952, 506838106104681 / 2305843009213693952, 171945219951011 / 576460752303423488],
    [0, 0, 0, 0, 0, 0, 178980933644391 / 9223372036854775808, 316534507537133 / 4611686018427387904, 170728146437965 / 1152921504606846976, 582841803708043 / 2305843009213693952, 433454869992333 / 1152921504606846976, 589261246457703 / 1152921504606846976],
    [0, 0, 0, 0, 0, 0, 33044037471049 / 1152921504606846976, 117188584205599 / 1152921504606846976, 506838106095553 / 2305843009213693952, 108363717497907 / 288230376151711744, 645878794712889 / 1152921504606846976, 109930377647109 / 144115188075855872],
    [0, 0, 0, 0, 0, 0, 178584319947381 / 4611686018427387904, 158700958331337 / 1152921504606846976, 343890439892853 / 1152921504606846976, 294630623225819 / 576460752303423488, 879443021170393 / 1152921504606846976, 149895337508943 / 144115188075855872]]

/-- The matrix that becomes the inverse after 6 passes. -/
def right6 : Mat ℚ :=
  [[4335478826774667 / 4503599627370496, -4104424169627623 / 281474976710656, 2506105410207473 / 35184372088832, -5290934530399121 / 35184372088832, 314128544159507 / 2199023255552, -3525523834714237 / 70368744177664, 0, 0, 0, 0, 0, 0],
    [-256526510601777 / 17592186044416, 2383638896015251 / 4398046511104, -3945751812452223 / 1099511627776, 2444101199881371 / 274877906944, -5129077970045843 / 549755813888, 1925113514097437 / 549755813888, 0, 0, 0, 0, 0, 0],
    [1253052705104125 / 17592186044416, -7891503624904463 / 2199023255552, 7185673921573957 / 274877906944, -4694529927260229 / 68719476736, 2549817568630539 / 34359738368, -980722806649323 / 34359738368, 0, 0, 0, 0, 0, 0],
    [-1322733632600239 / 8796093022208, 2444101199881259 / 274877906944, -4694529927260003 / 68719476736, 3168669137440159 / 17179869184, -1760448722719417 / 8589934592, 2754124223986169 / 34359738368, 0, 0, 0, 0, 0, 0],
    [2513028353276911 / 17592186044416, -5129077970045297 / 549755813888, 5099635137260541 / 68719476736, -7041794890877283 / 34359738368, 7954400988781743 / 34359738368, -6300927058663161 / 68719476736, 0, 0, 0, 0, 0, 0],
    [-7051047669430659 / 140737488355328, 7700454056388449 / 2199023255552, -7845782453193317 / 274877906944, 5508248447971749 / 68719476736, -6300927058662841 / 68719476736, 5040741646934065 / 137438953472, 0, 0, 0, 0, 0, 0],
    [58571471927927 / 288230376151711744, -150501227505727 / 4503599627370496, 458040223217211 / 1125899906842624, -983364869739359 / 562949953421312, 3798114636768027 / 1125899906842624, -3377699720472571 / 1125899906842624, 1, 0, 0, 0, 0, 0],
    [98916157127927 / 144115188075855872, -949486951107907 / 9007199254740992, 346429261667747 / 281474976710656, -1395094065221243 / 281474976710656, 2396433346342207 / 281474976710656, -6398232210378123 / 1125899906842624, 0, 1, 0, 0, 0, 0],
    [820521904249741 / 576460752303423488, -1873430801435523 / 9007199254740992, 2656528076558857 / 1125899906842624, -5137277316697145 / 562949953421312, 4139214910327779 / 281474976710656, -4915165073108381 / 562949953421312, 0, 0, 1, 0, 0, 0],
    [169220202709933 / 72057594037927936, -744179381536819 / 2251799813685248, 4133291481103871 / 1125899906842624, -3887347480006091 / 281474976710656, 3008772228774191 / 140737488355328, -1675919488381285 / 140737488355328, 0, 0, 0, 1, 0, 0],
    [977697339704937 / 288230376151711744, -130477535577407 / 281474976710656, 5705920427946045 / 1125899906842624, -1314876873815709 / 70368744177664, 1980144363104601 / 70368744177664, -264893773148909 / 17592186044416, 0, 0, 0, 0, 1, 0],
    [161977557057211 / 36028797018963968, -2702892118301055 / 4503599627370496, 7296079231788763 / 1125899906842624, -413978664456539 / 17592186044416, 2444423319734693 / 70368744177664, -5090205121528209 / 281474976710656, 0, 0, 0, 0, 0, 1]]

/-- The product after 9 passes of `matrixInvert`. -/
def left9 : Mat ℚ :=
  [[1, 0, 0, 0, 0, 0, 0, 0, 0, 102767861159271 / 590295810358705651712, 254457704604565 / 295147905179352825856, 361402774078927 / 147573952589676412928],
    [0, 1, 0, 0, 0, 0, 0, 0, 0, -460828395489513 / 288230376151711744, -1056364334783233 / 144115188075855872, -88057109132393 / 4503599627370496],
    [0, 0, 1, 0, 0, 0, 0, 0, 0, 723449376529575 / 18014398509481984, 819621408043749 / 4503599627370496, 541749467628165 / 1125899906842624],
    [0, 0, 0, 1, 0, 0, 0, 0, 0, -862134473924603 / 2251799813685248, -959892526895615 / 562949953421312, -1252590876321911 / 281474976710656],
    [0, 0, 0, 0, 1, 0, 0, 0, 0, 1051521419923549 / 562949953421312, 2282388785095905 / 281474976710656, 2924232854158749 / 140737488355328],
    [0, 0, 0, 0, 0, 1, 0, 0, 0, -1467788265424549 / 281474976710656, -1532577576424773 / 70368744177664, -1912720940800851 / 35184372088832],
    [0, 0, 0, 0, 0, 0, 1, 0, 0, 2439679319715209 / 281474976710656, 4785325696525883 / 140737488355328, 717890597378775 / 8796093022208],
    [0, 0, 0, 0, 0, 0, 0, 1, 0, -4771803113290319 / 562949953421312, -1041703507131303 / 35184372088832, -2347697470691295 / 35184372088832],
    [0, 0, 0, 0, 0, 0, 0, 0, 1, 1266637611560183 / 281474976710656, 3323155808323407 / 281474976710656, 6666513118519131 / 281474976710656],
    [0, 0, 0, 0, 0, 0, 0, 0, 0, 7728539402499 / 75557863725914323419136, 9661100797253 / 18889465931478580854784, 13843626308487 / 9444732965739290427392],
    [0, 0, 0, 0, 0, 0, 0, 0, 0, 19322487450011 / 37778931862957161709568, 48351452408367 / 18889465931478580854784, 69341293571779 / 9444732965739290427392],
    [0, 0, 0, 0, 0, 0, 0, 0, 0, 6921920591977 / 4722366482869645213696, 17335375586181 / 2361183241434822606848, 24879867709911 / 1180591620717411303424]]

/-- The matrix that becomes the inverse after 9 passes. -/
def right9 : Mat ℚ :=
  [[9004249806181587 / 9007199254740992, -3660781072807381 / 140737488355328, 4512708424729507 / 17592186044416, -709614034896235 / 549755813888, 2036330788004285 / 549755813888, -866885353116867 / 137438953472, 3463615789234089 / 549755813888, -936546031363867 / 274877906944, 6768468674303721 / 8796093022208, 0, 0, 0],
    [-7321562299626927 / 281474976710656, 2346024806418777 / 274877906944, -5449401029487275 / 34359738368, 1215656392894279 / 1073741824, -8761721862641169 / 2147483648, 4381701384236687 / 536870912, -4933929002782201 / 536870912, 2926519270872265 / 536870912, -5688891128833005 / 4294967296, 0, 0, 0],
    [2256354320770395 / 8796093022208, -1362350268621639 / 8589934592, 3329763751918143 / 1073741824, -6107880714259953 / 268435456, 5602606362830545 / 67108864, -1418997675166699 / 8388608, 1613273896445923 / 8388608, -7712587428574905 / 67108864, 3770519380859377 / 134217728, 0, 0, 0],
    [-5676912720607901 / 4398046511104, 2431312825225959 / 2147483648, -3053940380403113 / 134217728, 2851038225939417 / 16777216, -662285490632215 / 1048576, 5420884457739307 / 4194304, -6211162528220901 / 4194304, 7470095335025163 / 8388608, -3670784197899737 / 16777216, 0, 0, 0],
    [4072662015662135 / 1099511627776, -547607629389651 / 134217728, 175081451397521 / 2097152, -2649141980614921 / 4194304, 310788076790347 / 131072, -5128498514352915 / 1048576, 2957245799103235 / 524288, -1787900025239127 / 524288, 3530091081073607 / 4194304, 0, 0, 0],
    [-6935083776982843 / 1099511627776, 4381701518096611 / 536870912, -5675990819564369 / 33554432, 677610565960151 / 524288, -5128498545005707 / 1048576, 1331049539348073 / 131072, -6173928407667765 / 524288, 7499789115806291 / 1048576, -7432924276476845 / 4194304, 0, 0, 0],
    [1731808180387251 / 274877906944, -2466964592079815 / 268435456, 6453095757618717 / 33554432, -3105581320900197 / 2097152, 5914491664493187 / 1048576, -6173928439589873 / 524288, 7192616943933093 / 524288, -548246480780221 / 65536, 8723362405938469 / 4194304, 0, 0, 0],
    [-1873092420121951 / 549755813888, 5853038789618129 / 1073741824, -7712587673090789 / 67108864, 3735047753608643 / 4194304, -7151600213880083 / 2097152, 1874947297058885 / 262144, -8771943731512237 / 1048576, 2683677750151629 / 524288, -5353475095685395 / 4194304, 0, 0, 0],
    [6768470126407553 / 8796093022208, -2844445699127643 / 2147483648, 7541039034922893 / 268435456, -3670784297993343 / 16777216, 7060182302028983 / 8388608, -3716462188654301 / 2097152, 4361681239156561 / 2097152, -2676737558076273 / 2097152, 1338368761713383 / 4194304, 0, 0, 0],
    [-25692416054279 / 147573952589676412928, 115207416727623 / 72057594037927936, -361725516617969 / 9007199254740992, 862136062296157 / 2251799813685248, -1051522926746129 / 562949953421312, 366947458218989 / 70368744177664, -2439681140032305 / 281474976710656, 2385902663504479 / 281474976710656, -5066551544176581 / 1125899906842624, 1, 0, 0],
    [-254460405980815 / 295147905179352825856, 1056366040709311 / 144115188075855872, -204905627315679 / 1125899906842624, 959893574602043 / 562949953421312, -142649422489999 / 17592186044416, 11973270294443 / 549755813888, -4785328056889049 / 140737488355328, 4166815457626705 / 140737488355328, -3323156514469029 / 281474976710656, 0, 1, 0],
    [-180702754570187 / 73786976294838206464, 352228845463217 / 18014398509481984, -541749992972529 / 1125899906842624, 39143495993075 / 8796093022208, -182764670224895 / 8796093022208, 1912721904535295 / 35184372088832, -5743127000242189 / 70368744177664, 2347698141478587 / 35184372088832, -6666514441472315 / 281474976710656, 0, 0, 1]]

/-- The computed inverse of `product`. -/
def inverse : Mat ℚ :=
  [[9007142809779911 / 9007199254740992, -1970453203479255 / 70368744177664, 1303709333125093 / 4398046511104, -1647194376193107 / 1099511627776, 1760484406707447 / 549755813888, 403566914527771 / 137438953472, -1204284390633885 / 34359738368, 3234717311365935 / 34359738368, -4648183132476853 / 34359738368, 1936947788264967 / 17179869184, -3534021520707229 / 68719476736, 5474572200128009 / 549755813888],
    [-964565883248861 / 35184372088832, -7598312742542369 / 4294967296, 3699778962570933 / 67108864, -1458436582180419 / 2097152, 2501402768603135 / 524288, -5240963938417055 / 262144, 3541023422166169 / 65536, -3150799837690261 / 32768, 7339083504202531 / 65536, -2690885180184077 / 32768, 1126832660007437 / 32768, -6572120824514465 / 1048576],
    [611750222556001 / 2199023255552, 3705656957545173 / 67108864, -225061011852351 / 131072, 2833515579117391 / 131072, -4851426960462681 / 32768, 5074578419194533 / 8192, -3423982937592159 / 2048, 3043066724261395 / 1024, -7080858362492939 / 2048, 2593880429020147 / 1024, -271340478478477 / 256, 6325923372641267 / 32768],
    [-2789876757529095 / 2199023255552, -5853812000985139 / 8388608, 5677534974131125 / 262144, -8917637731134115 / 32768, 7620042365393847 / 4096, -7956939580744307 / 1024, 5360546848278337 / 256, -2378829583532887 / 64, 691067538705623 / 16, -8092249792413451 / 256, 1691429738548943 / 128, -4925066794865051 / 2048],
    [896986816098311 / 549755813888, 1257438715627491 / 262144, -304369094910823 / 2048, 3817482395222261 / 2048, -6512078418042957 / 512, 424264897671893 / 8, -4565924702184473 / 32, 4046565281056803 / 16, -4696144171697365 / 16, 6865912967130835 / 32, -5734509894687341 / 64, 8341182126283311 / 512],
    [1306804441337411 / 137438953472, -1319834916296263 / 65536, 318987096036653 / 512, -1997023665113459 / 256, 3400771075916037 / 64, -3539095344695911 / 16, 4753537433146081 / 8, -8413603772619905 / 8, 4875743599000843 / 4, -7120112905180295 / 8, 1485135226909485 / 4, -8632691050247653 / 128],
    [-1813920262598823 / 34359738368, 7147064620892683 / 131072, -6900228634521937 / 4096, 5391658872644329 / 256, -2291766855924861 / 16, 595320533693570, -1596849014794513, 5644961073553601 / 2, -6534310641285621 / 2, 2382782945400993, -3971908946395359 / 4, 5766461299837115 / 32],
    [2159455685605485 / 17179869184, -99538310843445 / 1024, 6143318648498243 / 2048, -1198436755357501 / 32, 4069431312418091 / 16, -8444736490801443 / 8, 2827569330878592, -4991355337829813, 5770789560254276, -4204067641570663, 1750192392294233, -5077232210946263 / 16],
    [-5910408285476485 / 34359738368, 3715565111824781 / 32768, -7158972130951739 / 2048, 5579626052783667 / 128, -4730528575353309 / 16, 4901986979924135 / 4, -6557121820987721 / 2, 5780537459351680, -6675704175030073, 4858240952839493, -2020592593743043, 5856510904510791 / 16],
    [1199835234371525 / 8589934592, -2728620272799959 / 32768, 5252780494871127 / 2048, -511208983818161 / 16, 3463379709793295 / 16, -7169501429525041 / 8, 2394825831400974, -4217760117986253, 4865861212511288, -7075388376108681 / 2, 5880166663340425 / 4, -4257263342215575 / 16],
    [-4309093124039623 / 68719476736, 2288309462857411 / 65536, -4401804382768915 / 4096, 3423971022046705 / 256, -724176482604305 / 8, 748776530590413 / 2, -1998844208615585 / 2, 3516838532766663 / 2, -8106744268569017 / 4, 2944339392130889 / 2, -1222459733663943 / 2, 442190906265573 / 4],
    [6604813465619265 / 549755813888, -104393569137851 / 16384, 6421730151997055 / 32768, -1247785967740257 / 512, 8437561261929321 / 512, -2179023071448167 / 32, 5811457087808419 / 32, -2553904345189825 / 8, 5881946318174553 / 16, -1067272192801427 / 4, 3542233286023677 / 32, -5121546391945689 / 256]]

/-- The computed inverse of the basis matrix. -/
def basisInverse : Mat ℚ :=
  [[1, 0, 0, 0, 0, 0, 0, 0, 0, 0, 0, 0],
    [1, 3275345183542179 / 36028797018963968, 0, 0, 0, 0, 0, 0, 0, 0, 0, 0],
    [1, 3275345183542179 / 18014398509481984, 2620276146833743 / 144115188075855872, 0, 0, 0, 0, 0, 0, 0, 0, 0],
    [1, 1228254443828317 / 4503599627370496, 7860828440501229 / 144115188075855872, 6987403058223315 / 1152921504606846976, 0, 0, 0, 0, 0, 0, 0, 0],
    [1, 3275345183542179 / 9007199254740992, 7860828440501229 / 72057594037927936, 6987403058223315 / 288230376151711744, 6987403058223315 / 2305843009213693952, 0, 0, 0, 0, 0, 0, 0],
    [1, 8188362958855447 / 18014398509481984, 3275345183542179 / 18014398509481984, 1091781727847393 / 18014398509481984, 1091781727847393 / 72057594037927936, 4991002184445225 / 2305843009213693952, 0, 0, 0, 0, 0, 0],
    [1, 1228254443828317 / 2251799813685248, 1228254443828317 / 4503599627370496, 1091781727847393 / 9007199254740992, 3275345183542179 / 72057594037927936, 3743251638333919 / 288230376151711744, 4991002184445225 / 2305843009213693952, 0, 0, 0, 0, 0],
    [1, 2865927035599413 / 4503599627370496, 429889055339911 / 1125899906842624, 7642472094931751 / 36028797018963968, 7642472094931751 / 72057594037927936, 6550690367084359 / 144115188075855872, 1091781727847393 / 72057594037927936, 6987403058223315 / 2305843009213693952, 0, 0, 0, 0],
    [1, 6550690367084463 / 9007199254740992, 2292741628479525 / 4503599627370496, 6113977675945401 / 18014398509481984, 7642472094931751 / 36028797018963968, 8734253822779147 / 72057594037927936, 1091781727847393 / 18014398509481984, 6987403058223315 / 288230376151711744, 6987403058223315 / 1152921504606846976, 0, 0, 0],
    [1, 7369526662970405 / 9007199254740992, 5895621330375917 / 9007199254740992, 2292741628479525 / 4503599627370496, 429889055339911 / 1125899906842624, 4913017775313273 / 18014398509481984, 3275345183542179 / 18014398509481984, 7860828440501229 / 72057594037927936, 7860828440501229 / 144115188075855872, 2620276146833743 / 144115188075855872, 0, 0],
    [1, 8188362958857309 / 9007199254740992, 7369526662969879 / 9007199254740992, 102354536985693 / 140737488355328, 5731854071198813 / 9007199254740992, 2456508887656643 / 4503599627370496, 8188362958855447 / 18014398509481984, 3275345183542179 / 9007199254740992, 1228254443828317 / 4503599627370496, 3275345183542179 / 18014398509481984, 3275345183542179 / 36028797018963968, 0],
    [1, 17592186044427 / 17592186044416, 35184372088831 / 35184372088832, 281474976710655 / 281474976710656, 1, 281474976710659 / 281474976710656, 1, 1, 1, 1, 1, 1]]

/-- The product of `inverse` and `powers`. -/
def mixed : Mat ℚ :=
  [[9007142809779911 / 9007199254740992, 4496924525981423 / 73786976294838206464, -2496272851877809 / 9223372036854775808, 26094567047567 / 36028797018963968, -46746274879913 / 36028797018963968, 3678255500479 / 2251799813685248, -51881613571 / 35184372088832, 67156484747 / 70368744177664, -7633973305 / 17592186044416, 145147187 / 1099511627776, -26582913 / 1099511627776, 1111465 / 549755813888],
    [-964565883248861 / 35184372088832, 8990910586051595 / 140737488355328, -6433836027775965 / 140737488355328, -199769560017791 / 2199023255552, 24381472689011 / 68719476736, -2545455911821 / 4294967296, 669310656209 / 1073741824, -59650893017 / 134217728, 7250785915 / 33554432, -289619991 / 4194304, 27536079 / 2097152, -1186297 / 1048576],
    [611750222556001 / 2199023255552, -8128077904728469 / 8796093022208, 1987608038790945 / 4398046511104, 248714528244655 / 68719476736, -24375409665407 / 2147483648, 4882877534011 / 268435456, -632511925249 / 33554432, 13995341005 / 1048576, -6778429423 / 1048576, 540162289 / 262144, -51264917 / 131072, 1102787 / 32768],
    [-2789876757529095 / 2199023255552, 1024058108061267 / 274877906944, 1897852982395705 / 274877906944, -247224568882431 / 4294967296, 19933296067761 / 134217728, -1896216781653 / 8388608, 481063061385 / 2097152, -84250901075 / 524288, 5068500877 / 65536, -804374757 / 32768, 19024839 / 4096, -816515 / 2048],
    [896986816098311 / 549755813888, 4898691086824221 / 549755813888, -2065976694406205 / 17179869184, 257225578904345 / 536870912, -8927935138781 / 8388608, 3212371418531 / 2097152, -396655458655 / 262144, 68414614903 / 65536, -2037776693 / 4096, 642288387 / 4096, -30218613 / 1024, 1291287 / 512],
    [1306804441337411 / 137438953472, -4600700756805129 / 34359738368, 3213081332455781 / 4294967296, -156887705045475 / 67108864, 39189987943011 / 8388608, -3337285036433 / 524288, 199549712969 / 32768, -1053515773 / 256, 7916411019 / 4096, -616868623 / 1024, 28760479 / 256, -1219669 / 128],
    [-1813920262598823 / 34359738368, 2335615458012655 / 4294967296, -5459741713909833 / 2147483648, 477221354143793 / 67108864, -13856696792761 / 1048576, 1122780438625 / 65536, -518336823375 / 32768, 10657996015 / 1024, -2450515585 / 512, 46910839 / 32, -8617287 / 32, 721251 / 32],
    [2159455685605485 / 17179869184, -644926778729369 / 536870912, 2821786259255907 / 536870912, -465654152492889 / 33554432, 25729791812797 / 1048576, -998674623587 / 32768, 444201558071 / 16384, -35357055937 / 2048, 3946889013 / 512, -294174215 / 128, 6585603 / 16, -538199 / 16],
    [-5910408285476485 / 34359738368, 1718829816141797 / 1073741824, -3649994125397801 / 536870912, 145798262876587 / 8388608, -31138842350707 / 1048576, 2332084394047 / 65536, -124923279101 / 4096, 38271177731 / 2048, -4105058443 / 512, 293508233 / 128, -12579917 / 32, 491079 / 16],
    [1199835234371525 / 8589934592, -2762136691249255 / 2147483648, 5780890388568181 / 1073741824, -453169422795053 / 33554432, 47251090414563 / 2097152, -3435960034281 / 131072, 355103732307 / 16384, -52072482559 / 4096, 5297711883 / 1024, -355143451 / 256, 14058471 / 64, -248659 / 16],
    [-4309093124039623 / 68719476736, 1234973636484771 / 2147483648, -2565884744983853 / 1073741824, 49713401833735 / 8388608, -40775806510711 / 4194304, 2894711158161 / 262144, -36150030493 / 4096, 40424963417 / 8192, -3839106143 / 2048, 232316117 / 512, -7819399 / 128, 13001 / 4],
    [6604813465619265 / 549755813888, -3781474510429263 / 34359738368, 3914275988089833 / 8589934592, -301227674266679 / 268435456, 30515172808787 / 16777216, -265556821149 / 131072, 205702356737 / 131072, -3414526681 / 4096, 2374044283 / 8192, -472529 / 8, 328583 / 64, 17695 / 256]]

/-- The basis matrix after 6 passes. -/
def basisLeft6 : Mat ℚ :=
  [[1, 0, 0, 0, 0, 0, 0, 0, 0, 0, 0, 0],
    [0, 1, 0, 0, 0, 0, 0, 0, 0, 0, 0, 0],
    [0, 0, 1, 0, 0, 0, 0, 0, 0, 0, 0, 0],
    [0, 0, 0, 1, 0, 0, 0, 0, 0, 0, 0, 0],
    [0, 0, 0, 0, 1, 0, 0, 0, 0, 0, 0, 0],
    [0, 0, 0, 0, 0, 1, 0, 0, 0, 0, 0, 0],
    [0, 0, 0, 0, 0, 0, 462, 0, 0, 0, 0, 0],
    [0, 0, 0, 0, 0, 0, -2310, 330, 0, 0, 0, 0],
    [0, 0, 0, 0, 0, 0, 4620, -1320, 165, 0, 0, 0],
    [0, 0, 0, 0, 0, 0, -4620, 1980, -495, 55, 0, 0],
    [0, 0, 0, 0, 0, 0, 2310, -1320, 495, -110, 11, 0],
    [0, 0, 0, 0, 0, 0, -462, 330, -165, 55, -11, 1]]

/-- The matrix that becomes its inverse after 6 passes. -/
def basisRight6 : Mat ℚ :=
  [[1, 0, 0, 0, 0, 0, 0, 0, 0, 0, 0, 0],
    [1, 3275345183542179 / 36028797018963968, 0, 0, 0, 0, 0, 0, 0, 0, 0, 0],
    [1, 3275345183542179 / 18014398509481984, 2620276146833743 / 144115188075855872, 0, 0, 0, 0, 0, 0, 0, 0, 0],
    [1, 1228254443828317 / 4503599627370496, 7860828440501229 / 144115188075855872, 6987403058223315 / 1152921504606846976, 0, 0, 0, 0, 0, 0, 0, 0],
    [1, 3275345183542179 / 9007199254740992, 7860828440501229 / 72057594037927936, 6987403058223315 / 288230376151711744, 6987403058223315 / 2305843009213693952, 0, 0, 0, 0, 0, 0, 0],
    [1, 8188362958855447 / 18014398509481984, 3275345183542179 / 18014398509481984, 1091781727847393 / 18014398509481984, 1091781727847393 / 72057594037927936, 4991002184445225 / 2305843009213693952, 0, 0, 0, 0, 0, 0],
    [462, 252, 126, 56, 21, 6, 1, 0, 0, 0, 0, 0],
    [-1980, -2308974418329599 / 2199023255552, -504, -210, -70, -15, 0, 1, 0, 0, 0, 0],
    [3465, 1800, 840, 336, 105, 20, 0, 0, 1, 0, 0, 0],
    [-3080, -1575, -720, -280, -84, -15, 0, 0, 0, 1, 0, 0],
    [1386, 700, 315, 120, 35, 6, 0, 0, 0, 0, 1, 0],
    [-252, -126, -56, -21, -6, -1, 0, 0, 0, 0, 0, 1]]

def basis : Mat ℚ := tab 12 12 fun i j => (basisEntry 12 i j : ℚ)

def unit : Mat ℚ := tab 12 12 fun r c => if r = c then 1 else 0

/-- The matrices after some passes of `matrixInvert`. -/
def invState (n : ℕ) : List ℕ → Mat ℚ → Mat ℚ → Option (Mat ℚ × Mat ℚ)
  | [], C, I => some (C, I)
  | i :: is, C, I => if entry C i i = 0 then none else invState n is (Flt.invStep n i C I).1 (Flt.invStep n i C I).2

theorem invLoop_append (n : ℕ) (js : List ℕ) : ∀ (is : List ℕ) (C I C' I' : Mat ℚ), invState n is C I = some (C', I') →
    Flt.invLoop n (is ++ js) C I = Flt.invLoop n js C' I' := by
  intro is
  induction is with
  | nil =>
    intro C I C' I' h
    obtain ⟨rfl, rfl⟩ := Prod.mk.inj (Option.some.inj h)
    rfl
  | cons i is ih =>
    intro C I C' I' h
    rw [invState] at h
    split_ifs at h with h0
    rw [List.cons_append, Flt.invLoop, if_neg h0]
    exact ih _ _ _ _ h

theorem powers_eq : (tab 12 12 fun i j => fl ((Flt.times twelve).getD j 0 ^ i)) = powers := by decide +kernel

theorem product_eq : Flt.mulM 12 12 12 powers (tab 12 12 fun i j => entry powers j i) = product := by decide +kernel

theorem step3 : invState 12 [0, 1, 2] product unit = some (left3, right3) := by decide +kernel

theorem step6 : invState 12 [3, 4, 5] left3 right3 = some (left6, right6) := by decide +kernel

theorem step9 : invState 12 [6, 7, 8] left6 right6 = some (left9, right9) := by decide +kernel

theorem step12 : Flt.invLoop 12 [9, 10, 11] left9 right9 = some inverse := by decide +kernel

theorem inverse_eq : Flt.invert 12 product = some inverse := by
  have e : List.range 12 = [0, 1, 2] ++ ([3, 4, 5] ++ ([6, 7, 8] ++ [9, 10, 11])) := by decide +kernel
  show Flt.invLoop 12 (List.range 12) product unit = _
  rw [e, invLoop_append _ _ _ _ _ _ _ step3, invLoop_append _ _ _ _ _ _ _ step6, invLoop_append _ _ _ _ _ _ _ step9, step12]

theorem basisStep6 : invState 12 [0, 1, 2, 3, 4, 5] basis unit = some (basisLeft6, basisRight6) := by decide +kernel

theorem basisStep12 : Flt.invLoop 12 [6, 7, 8, 9, 10, 11] basisLeft6 basisRight6 = some basisInverse := by decide +kernel

theorem basisInverse_eq : Flt.invert 12 basis = some basisInverse := by
  have e : List.range 12 = [0, 1, 2, 3, 4, 5] ++ [6, 7, 8, 9, 10, 11] := by decide +kernel
  show Flt.invLoop 12 (List.range 12) basis unit = _
  rw [e, invLoop_append _ _ _ _ _ _ _ basisStep6, basisStep12]

theorem mixed_eq : Flt.mulM 12 12 12 inverse powers = mixed := by decide +kernel

theorem last : entry (Flt.mulM 12 12 1 (Flt.mulM 12 12 12 basisInverse mixed) (twelve.map fun p => [p.1])) 11 0 < -26 := by
  decide +kernel

/-- `bestFit` from its intermediate results. -/
theorem bestFit_of {n : ℕ} {p : List (Pt ℚ)} {M Tt A A1 M1 W : Mat ℚ} {S : List ℚ}
    (h1 : (tab n n fun i j => fl (S.getD j 0 ^ i)) = Tt) (h2 : Flt.mulM n n n Tt (tab n n fun i j => entry Tt j i) = A)
    (h3 : Flt.invert n A = some A1) (h4 : Flt.invert n M = some M1) (h5 : Flt.mulM n n n A1 Tt = W) :
    Flt.bestFit n p M S = some (Flt.mulM n n 1 (Flt.mulM n n n M1 W) (p.map fun p => [p.1]),
      Flt.mulM n n 1 (Flt.mulM n n n M1 W) (p.map fun p => [p.2])) := by
  subst h1 h2 h5
  unfold Flt.bestFit Flt.fitMatrix
  simp only [h3, h4, Option.map_some]

/-- The last x coordinate of the result is less than -26. -/
theorem fit : ∃ X Y, Flt.bestFit 12 twelve (tab 12 12 fun i j => (basisEntry 12 i j : ℚ)) (Flt.times twelve) = some (X, Y) ∧
    entry X 11 0 < -26 :=
  ⟨_, _, bestFit_of powers_eq product_eq inverse_eq basisInverse_eq mixed_eq, last⟩

end Twelve

end PathLib
