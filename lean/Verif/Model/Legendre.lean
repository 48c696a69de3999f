import Mathlib.Data.Rat.Defs
import Mathlib.Tactic.NormNum

/-!
# Model of the Gauss-Legendre tables of PathLib/BezierUtilities.py

The decimal literals, digit by digit, as exact rationals (generated from the source text).
-/

namespace PathLib
namespace butils

/-- PathLib/BezierUtilities.py:20-45 `tValues`. -/
def tValues : List ℚ := [
  -640568928626056260850430826247450385909 / 10 ^ 40,
  640568928626056260850430826247450385909 / 10 ^ 40,
  -1911188674736163091586398207570696318404 / 10 ^ 40,
  1911188674736163091586398207570696318404 / 10 ^ 40,
  -3150426796961633743867932913198102407864 / 10 ^ 40,
  3150426796961633743867932913198102407864 / 10 ^ 40,
  -4337935076260451384870842319133497124524 / 10 ^ 40,
  4337935076260451384870842319133497124524 / 10 ^ 40,
  -5454214713888395356583756172183723700107 / 10 ^ 40,
  5454214713888395356583756172183723700107 / 10 ^ 40,
  -6480936519369755692524957869107476266696 / 10 ^ 40,
  6480936519369755692524957869107476266696 / 10 ^ 40,
  -7401241915785543642438281030999784255232 / 10 ^ 40,
  7401241915785543642438281030999784255232 / 10 ^ 40,
  -8200019859739029219539498726697452080761 / 10 ^ 40,
  8200019859739029219539498726697452080761 / 10 ^ 40,
  -8864155270044010342131543419821967550873 / 10 ^ 40,
  8864155270044010342131543419821967550873 / 10 ^ 40,
  -9382745520027327585236490017087214496548 / 10 ^ 40,
  9382745520027327585236490017087214496548 / 10 ^ 40,
  -9747285559713094981983919930081690617411 / 10 ^ 40,
  9747285559713094981983919930081690617411 / 10 ^ 40,
  -9951872199970213601799974097007368118745 / 10 ^ 40,
  9951872199970213601799974097007368118745 / 10 ^ 40]

/-- PathLib/BezierUtilities.py:48-73 `cValues`. -/
def cValues : List ℚ := [
  1279381953467521569740561652246953718517 / 10 ^ 40,
  1279381953467521569740561652246953718517 / 10 ^ 40,
  1258374563468282961213753825111836887264 / 10 ^ 40,
  1258374563468282961213753825111836887264 / 10 ^ 40,
  121670472927803391204463153476262425607 / 10 ^ 39,
  121670472927803391204463153476262425607 / 10 ^ 39,
  1155056680537256013533444839067835598622 / 10 ^ 40,
  1155056680537256013533444839067835598622 / 10 ^ 40,
  1074442701159656347825773424466062227946 / 10 ^ 40,
  1074442701159656347825773424466062227946 / 10 ^ 40,
  976186521041138882698806644642471544279 / 10 ^ 40,
  976186521041138882698806644642471544279 / 10 ^ 40,
  86190161531953275917185202983742667185 / 10 ^ 39,
  86190161531953275917185202983742667185 / 10 ^ 39,
  733464814110803057340336152531165181193 / 10 ^ 40,
  733464814110803057340336152531165181193 / 10 ^ 40,
  592985849154367807463677585001085845412 / 10 ^ 40,
  592985849154367807463677585001085845412 / 10 ^ 40,
  442774388174198061686027482113382288593 / 10 ^ 40,
  442774388174198061686027482113382288593 / 10 ^ 40,
  285313886289336631813078159518782864491 / 10 ^ 40,
  285313886289336631813078159518782864491 / 10 ^ 40,
  123412297999871995468056670700372915759 / 10 ^ 40,
  123412297999871995468056670700372915759 / 10 ^ 40]

end butils
end PathLib
