import Verif.Qr.Greedy

/-!
# Two matrices and their pivots

The matrices of the fit of two quintic segments with durations 3 and 4, and 3/2 and 2 (times 32), column by
column, and their orthogonalisation.
-/

set_option linter.unusedSectionVars false
set_option linter.dupNamespace false
set_option maxRecDepth 100000

namespace Verif.Qr

/-- Columns of the matrix for the durations 3 and 4, step by step. -/
def longTables : List (List (List ℤ)) := [
  [[0, 0, 0, 0, 0, 0, 243, 0, 405, 540],
    [0, 0, 0, 0, 0, 0, 81, 0, 108, 108],
    [0, 0, 0, 0, 0, 0, 27, 0, 27, 18],
    [0, 0, 2, 0, 0, 0, 9, 0, 6, 2],
    [0, 1, 0, 0, 0, 0, 3, 0, 1, 0],
    [1, 0, 0, 0, 0, 0, 1, 0, 0, 0],
    [0, 0, 0, 1024, 1280, 1280, 0, 0, 0, 0],
    [0, 0, 0, 256, 256, 192, 0, 0, 0, 0],
    [0, 0, 0, 64, 48, 24, 0, 0, 0, 0],
    [0, 0, 0, 16, 8, 2, 0, 0, 0, -2],
    [0, 0, 0, 4, 1, 0, 0, 0, -1, 0],
    [0, 0, 0, 1, 0, 0, 0, 1, 0, 0]],
  [[0, 0, 0, 0, 0, 0, 16038, 0, 26730, 35640],
    [0, 0, 0, 0, 0, 0, 5346, 0, 7128, 7128],
    [0, 0, 0, 0, 0, 0, 1782, 0, 1782, 1188],
    [0, 0, 132, 0, 0, 0, 594, 0, 396, 132],
    [0, 66, 0, 0, 0, 0, 198, 0, 66, 0],
    [66, 0, 0, 0, 0, 0, 66, 0, 0, 0],
    [0, 0, 0, 0, 0, 0, 0, 0, 0, 0],
    [0, 0, 0, 3840, 576, -3648, 0, 0, 0, 0],
    [0, 0, 0, 1760, 88, -1496, 0, 0, 0, 0],
    [0, 0, 0, 600, -42, -438, 0, 0, 0, -132],
    [0, 0, 0, 180, -39, -105, 0, 0, -66, 0],
    [0, 0, 0, 50, -20, -20, 0, 66, 0, 0]],
  [[0, 0, 0, 0, 0, 0, 0, 0, 0, 0],
    [0, 0, 0, 0, 0, 0, 547965, 0, 284229, -459756],
    [0, 0, 0, 0, 0, 0, 329670, 0, 130086, -245916],
    [0, 0, 46596, 0, 0, 0, 147015, 0, 35343, -92664],
    [0, 23298, 0, 0, 0, 0, 57420, 0, 2508, -27720],
    [23298, 0, 0, 0, 0, 0, 20625, 0, -4455, -5940],
    [0, 0, 0, 0, 0, 0, 0, 0, 0, 0],
    [0, 0, 0, 1355520, 203328, -1287744, 0, 0, 0, 0],
    [0, 0, 0, 621280, 31064, -528088, 0, 0, 0, 0],
    [0, 0, 0, 211800, -14826, -154614, 11880, 0, 19800, -20196],
    [0, 0, 0, 63540, -13767, -37065, 4455, 0, -15873, 9900],
    [0, 0, 0, 17650, -7060, -7060, 0, 23298, 0, 0]],
  [[0, 0, 0, 0, 0, 0, 0, 0, 0, 0],
    [0, 0, 0, 0, 0, 0, 1743525, 0, 904365, -1462860],
    [0, 0, 0, 0, 0, 0, 1048950, 0, 413910, -782460],
    [0, 0, 148260, 0, 0, 0, 467775, 0, 112455, -294840],
    [0, 74130, 0, 0, 0, 0, 182700, 0, 7980, -88200],
    [74130, 0, 0, 0, 0, 0, 65625, 0, -14175, -18900],
    [0, 0, 0, 0, 0, 0, 0, 0, 0, 0],
    [0, 0, 0, 0, 0, 0, 0, 0, 0, 0],
    [0, 0, 0, 112960, -180736, 90368, 0, 0, 0, 0],
    [0, 0, 0, 84720, -135552, 67776, 37800, 0, 63000, -64260],
    [0, 0, 0, 42360, -67776, 33888, 14175, 0, -50505, 31500],
    [0, 0, 0, 17650, -28240, 14120, 0, 74130, 0, 0]],
  [[0, 0, 0, 0, 0, 0, 0, 0, 0, 0],
    [0, 0, 0, 0, 0, 0, 0, 0, 0, 0],
    [0, 0, 0, 0, 0, 0, 16200, 0, -19440, 7290],
    [0, 0, 31710, 0, 0, 0, 16200, 0, -19440, 7290],
    [0, 15855, 0, 0, 0, 0, 10800, 0, -12960, 4860],
    [15855, 0, 0, 0, 0, 0, 6000, 0, -7200, 2700],
    [0, 0, 0, 0, 0, 0, 0, 0, 0, 0],
    [0, 0, 0, 0, 0, 0, 0, 0, 0, 0],
    [0, 0, 0, 24160, -38656, 19328, 0, 0, 0, 0],
    [0, 0, 0, 18120, -28992, 14496, -5400, 0, 6480, -2430],
    [0, 0, 0, 9060, -14496, 7248, 7200, 0, -8640, 3240],
    [0, 0, 0, 3775, -6040, 3020, 0, 15855, 0, 0]],
  [[0, 0, 0, 0, 0, 0, 0, 0, 0, 0],
    [0, 0, 0, 0, 0, 0, 0, 0, 0, 0],
    [0, 0, 0, 0, 0, 0, 1080, 0, -1296, 486],
    [0, 0, 2114, 0, 0, 0, 1080, 0, -1296, 486],
    [0, 1057, 0, 0, 0, 0, 720, 0, -864, 324],
    [1057, 0, 0, 0, 0, 0, 400, 0, -480, 180],
    [0, 0, 0, 0, 0, 0, 0, 0, 0, 0],
    [0, 0, 0, 0, 0, 0, 0, 0, 0, 0],
    [0, 0, 0, 0, 0, 0, 0, 0, 0, 0],
    [0, 0, 0, 0, 0, 0, -360, 0, 432, -162],
    [0, 0, 0, 0, 0, 0, 480, 0, -576, 216],
    [0, 0, 0, 0, 0, 0, 0, 1057, 0, 0]],
  [[0, 0, 0, 0, 0, 0, 0, 0, 0, 0],
    [0, 0, 0, 0, 0, 0, 0, 0, 0, 0],
    [0, 0, -729, 0, 0, 0, 540, 0, -648, 243],
    [0, 0, 0, 0, 0, 0, 0, 0, 0, 0],
    [0, 893, -486, 0, 0, 0, 360, 0, -432, 162],
    [893, 0, -270, 0, 0, 0, 200, 0, -240, 90],
    [0, 0, 0, 0, 0, 0, 0, 0, 0, 0],
    [0, 0, 0, 0, 0, 0, 0, 0, 0, 0],
    [0, 0, 0, 0, 0, 0, 0, 0, 0, 0],
    [0, 0, 243, 0, 0, 0, -180, 0, 216, -81],
    [0, 0, -324, 0, 0, 0, 240, 0, -288, 108],
    [0, 0, 0, 0, 0, 0, 0, 893, 0, 0]],
  [[0, 0, 0, 0, 0, 0, 0, 0, 0, 0],
    [0, 0, 0, 0, 0, 0, 0, 0, 0, 0],
    [0, -972, -729, 0, 0, 0, 540, 0, -648, 243],
    [0, 0, 0, 0, 0, 0, 0, 0, 0, 0],
    [0, 0, 0, 0, 0, 0, 0, 0, 0, 0],
    [1541, -360, -270, 0, 0, 0, 200, 0, -240, 90],
    [0, 0, 0, 0, 0, 0, 0, 0, 0, 0],
    [0, 0, 0, 0, 0, 0, 0, 0, 0, 0],
    [0, 0, 0, 0, 0, 0, 0, 0, 0, 0],
    [0, 324, 243, 0, 0, 0, -180, 0, 216, -81],
    [0, -432, -324, 0, 0, 0, 240, 0, -288, 108],
    [0, 0, 0, 0, 0, 0, 0, 1541, 0, 0]],
  [[0, 0, 0, 0, 0, 0, 0, 0, 0, 0],
    [0, 0, 0, 0, 0, 0, 0, 0, 0, 0],
    [-540, -972, -729, 0, 0, 0, 540, 0, -648, 243],
    [0, 0, 0, 0, 0, 0, 0, 0, 0, 0],
    [0, 0, 0, 0, 0, 0, 0, 0, 0, 0],
    [0, 0, 0, 0, 0, 0, 0, 0, 0, 0],
    [0, 0, 0, 0, 0, 0, 0, 0, 0, 0],
    [0, 0, 0, 0, 0, 0, 0, 0, 0, 0],
    [0, 0, 0, 0, 0, 0, 0, 0, 0, 0],
    [180, 324, 243, 0, 0, 0, -180, 0, 216, -81],
    [-240, -432, -324, 0, 0, 0, 240, 0, -288, 108],
    [0, 0, 0, 0, 0, 0, 0, 1741, 0, 0]],
  [[0, 0, 0, 0, 0, 0, 0, 0, 0, 0],
    [0, 0, 0, 0, 0, 0, 0, 0, 0, 0],
    [-180, -324, -243, 0, 0, 0, 180, 0, -216, 81],
    [0, 0, 0, 0, 0, 0, 0, 0, 0, 0],
    [0, 0, 0, 0, 0, 0, 0, 0, 0, 0],
    [0, 0, 0, 0, 0, 0, 0, 0, 0, 0],
    [0, 0, 0, 0, 0, 0, 0, 0, 0, 0],
    [0, 0, 0, 0, 0, 0, 0, 0, 0, 0],
    [0, 0, 0, 0, 0, 0, 0, 0, 0, 0],
    [60, 108, 81, 0, 0, 0, -60, 0, 72, -27],
    [-80, -144, -108, 0, 0, 0, 80, 0, -96, 36],
    [0, 0, 0, 0, 0, 0, 0, 0, 0, 0]],
  [[0, 0, 0, 0, 0, 0, 0, 0, 0, 0],
    [0, 0, 0, 0, 0, 0, 0, 0, 0, 0],
    [0, 0, 0, 0, 0, 0, 0, 0, 0, 0],
    [0, 0, 0, 0, 0, 0, 0, 0, 0, 0],
    [0, 0, 0, 0, 0, 0, 0, 0, 0, 0],
    [0, 0, 0, 0, 0, 0, 0, 0, 0, 0],
    [0, 0, 0, 0, 0, 0, 0, 0, 0, 0],
    [0, 0, 0, 0, 0, 0, 0, 0, 0, 0],
    [0, 0, 0, 0, 0, 0, 0, 0, 0, 0],
    [0, 0, 0, 0, 0, 0, 0, 0, 0, 0],
    [0, 0, 0, 0, 0, 0, 0, 0, 0, 0],
    [0, 0, 0, 0, 0, 0, 0, 0, 0, 0]]]

/-- The pivots. -/
def longPivots : List ℕ := [6, 0, 7, 1, 8, 3, 4, 5, 11, 2]

/-- The common factors taken out. -/
def longFactors : List ℤ := [65536, 6351048, 1111647854592, 28042295960700, 36773452800, 8937992, 797449, 2374681, 9093243, 1]

theorem long_steps : ∀ m < 10, Step 10 12 (longTables.getD m []) (longPivots.getD m 0)
    (longFactors.getD m 0) (longTables.getD (m + 1) []) := by decide +kernel

/-- Columns of 32 times the matrix for the durations 3/2 and 2, step by step. -/
def shortTables : List (List (List ℤ)) := [
  [[0, 0, 0, 0, 0, 0, 243, 0, 810, 2160],
    [0, 0, 0, 0, 0, 0, 162, 0, 432, 864],
    [0, 0, 0, 0, 0, 0, 108, 0, 216, 288],
    [0, 0, 64, 0, 0, 0, 72, 0, 96, 64],
    [0, 32, 0, 0, 0, 0, 48, 0, 32, 0],
    [32, 0, 0, 0, 0, 0, 32, 0, 0, 0],
    [0, 0, 0, 1024, 2560, 5120, 0, 0, 0, 0],
    [0, 0, 0, 512, 1024, 1536, 0, 0, 0, 0],
    [0, 0, 0, 256, 384, 384, 0, 0, 0, 0],
    [0, 0, 0, 128, 128, 64, 0, 0, 0, -64],
    [0, 0, 0, 64, 32, 0, 0, 0, -32, 0],
    [0, 0, 0, 32, 0, 0, 0, 32, 0, 0]],
  [[0, 0, 0, 0, 0, 0, 31347, 0, 104490, 278640],
    [0, 0, 0, 0, 0, 0, 20898, 0, 55728, 111456],
    [0, 0, 0, 0, 0, 0, 13932, 0, 27864, 37152],
    [0, 0, 8256, 0, 0, 0, 9288, 0, 12384, 8256],
    [0, 4128, 0, 0, 0, 0, 6192, 0, 4128, 0],
    [4128, 0, 0, 0, 0, 0, 4128, 0, 0, 0],
    [0, 0, 0, 0, 0, 0, 0, 0, 0, 0],
    [0, 0, 0, 23040, 24576, -16896, 0, 0, 0, 0],
    [0, 0, 0, 20480, 18176, -13184, 0, 0, 0, 0],
    [0, 0, 0, 13440, 8832, -7104, 0, 0, 0, -8256],
    [0, 0, 0, 7680, 2688, -2880, 0, 0, -4128, 0],
    [0, 0, 0, 4000, -320, -640, 0, 4128, 0, 0]],
  [[0, 0, 0, 0, 0, 0, 0, 0, 0, 0],
    [0, 0, 0, 0, 0, 0, 14315130, 0, 22009077, -9863856],
    [0, 0, 0, 0, 0, 0, 16857720, 0, 21915036, -10114632],
    [0, 0, 15234384, 0, 0, 0, 14628600, 0, 14484636, -7077456],
    [0, 7617192, 0, 0, 0, 0, 11021760, 0, 6270432, -3591360],
    [7617192, 0, 0, 0, 0, 0, 7533600, 0, -278640, -743040],
    [0, 0, 0, 0, 0, 0, 0, 0, 0, 0],
    [0, 0, 0, 42514560, 45348864, -31177344, 0, 0, 0, 0],
    [0, 0, 0, 37790720, 33539264, -24327776, 0, 0, 0, 0],
    [0, 0, 0, 24800160, 16297248, -13108656, 1486080, 0, 4953600, -2024784],
    [0, 0, 0, 14171520, 4960032, -5314320, 278640, 0, -6688392, 2476800],
    [0, 0, 0, 7381000, -590480, -1180960, 0, 7617192, 0, 0]],
  [[0, 0, 0, 0, 0, 0, 0, 0, 0, 0],
    [0, 0, 0, 0, 0, 0, 2330370, 0, 3582873, -1605744],
    [0, 0, 0, 0, 0, 0, 2744280, 0, 3567564, -1646568],
    [0, 0, 2480016, 0, 0, 0, 2381400, 0, 2357964, -1152144],
    [0, 1240008, 0, 0, 0, 0, 1794240, 0, 1020768, -584640],
    [1240008, 0, 0, 0, 0, 0, 1226400, 0, -45360, -120960],
    [0, 0, 0, 0, 0, 0, 0, 0, 0, 0],
    [0, 0, 0, 0, 0, 0, 0, 0, 0, 0],
    [0, 0, 0, 590480, -472384, 118096, 0, 0, 0, 0],
    [0, 0, 0, 885720, -708576, 177144, 241920, 0, 806400, -329616],
    [0, 0, 0, 885720, -708576, 177144, 45360, 0, -1088808, 403200],
    [0, 0, 0, 738100, -590480, 147620, 0, 1240008, 0, 0]],
  [[0, 0, 0, 0, 0, 0, 0, 0, 0, 0],
    [0, 0, 0, 0, 0, 0, -11340, 0, 7938, -1701],
    [0, 0, 0, 0, 0, 0, 0, 0, 0, 0],
    [0, 0, 101640, 0, 0, 0, 15120, 0, -10584, 2268],
    [0, 50820, 0, 0, 0, 0, 26880, 0, -18816, 4032],
    [50820, 0, 0, 0, 0, 0, 33600, 0, -23520, 5040],
    [0, 0, 0, 0, 0, 0, 0, 0, 0, 0],
    [0, 0, 0, 0, 0, 0, 0, 0, 0, 0],
    [0, 0, 0, 24200, -19360, 4840, 0, 0, 0, 0],
    [0, 0, 0, 36300, -29040, 7260, -10080, 0, 7056, -1512],
    [0, 0, 0, 36300, -29040, 7260, 23520, 0, -16464, 3528],
    [0, 0, 0, 30250, -24200, 6050, 0, 50820, 0, 0]],
  [[0, 0, 0, 0, 0, 0, 0, 0, 0, 0],
    [0, 0, 5103, 0, 0, 0, -22680, 0, 15876, -3402],
    [0, 0, 0, 0, 0, 0, 0, 0, 0, 0],
    [0, 0, 0, 0, 0, 0, 0, 0, 0, 0],
    [0, 105042, -12096, 0, 0, 0, 53760, 0, -37632, 8064],
    [105042, 0, -15120, 0, 0, 0, 67200, 0, -47040, 10080],
    [0, 0, 0, 0, 0, 0, 0, 0, 0, 0],
    [0, 0, 0, 0, 0, 0, 0, 0, 0, 0],
    [0, 0, 0, 50020, -40016, 10004, 0, 0, 0, 0],
    [0, 0, 4536, 75030, -60024, 15006, -20160, 0, 14112, -3024],
    [0, 0, -10584, 75030, -60024, 15006, 47040, 0, -32928, 7056],
    [0, 0, 0, 62525, -50020, 12505, 0, 105042, 0, 0]],
  [[0, 0, 0, 0, 0, 0, 0, 0, 0, 0],
    [7560, 0, 1701, 0, 0, 0, -7560, 0, 5292, -1134],
    [0, 0, 0, 0, 0, 0, 0, 0, 0, 0],
    [0, 0, 0, 0, 0, 0, 0, 0, 0, 0],
    [-17920, 57414, -4032, 0, 0, 0, 17920, 0, -12544, 2688],
    [0, 0, 0, 0, 0, 0, 0, 0, 0, 0],
    [0, 0, 0, 0, 0, 0, 0, 0, 0, 0],
    [0, 0, 0, 0, 0, 0, 0, 0, 0, 0],
    [0, 0, 0, 27340, -21872, 5468, 0, 0, 0, 0],
    [6720, 0, 1512, 41010, -32808, 8202, -6720, 0, 4704, -1008],
    [-15680, 0, -3528, 41010, -32808, 8202, 15680, 0, -10976, 2352],
    [0, 0, 0, 34175, -27340, 6835, 0, 57414, 0, 0]],
  [[0, 0, 0, 0, 0, 0, 0, 0, 0, 0],
    [72360, 0, 16281, 0, 0, 0, -72360, 0, 50652, -10854],
    [0, 0, 0, 0, 0, 0, 0, 0, 0, 0],
    [0, 0, 0, 0, 0, 0, 0, 0, 0, 0],
    [-171520, 549534, -38592, 0, 0, 0, 171520, 0, -120064, 25728],
    [0, 0, 0, 0, 0, 0, 0, 0, 0, 0],
    [0, 0, 0, 0, 0, 0, 0, 0, 0, 0],
    [0, 0, 0, 0, 0, 0, 0, 0, 0, 0],
    [0, 0, 0, 164040, -131232, 32808, 0, -164040, 0, 0],
    [64320, 0, 14472, 246060, -196848, 49212, -64320, -246060, 45024, -9648],
    [-150080, 0, -33768, 246060, -196848, 49212, 150080, -246060, -105056, 22512],
    [0, 0, 0, 0, 0, 0, 0, 0, 0, 0]],
  [[0, 0, 0, 0, 0, 0, 0, 0, 0, 0],
    [72360, 57888, 16281, 0, 0, 0, -72360, 0, 50652, -10854],
    [0, 0, 0, 0, 0, 0, 0, 0, 0, 0],
    [0, 0, 0, 0, 0, 0, 0, 0, 0, 0],
    [0, 0, 0, 0, 0, 0, 0, 0, 0, 0],
    [0, 0, 0, 0, 0, 0, 0, 0, 0, 0],
    [0, 0, 0, 0, 0, 0, 0, 0, 0, 0],
    [0, 0, 0, 0, 0, 0, 0, 0, 0, 0],
    [0, 0, 0, 205000, -164000, 41000, 0, -205000, 0, 0],
    [64320, 51456, 14472, 307500, -246000, 61500, -64320, -307500, 45024, -9648],
    [-150080, -120064, -33768, 307500, -246000, 61500, 150080, -307500, -105056, 22512],
    [0, 0, 0, 0, 0, 0, 0, 0, 0, 0]],
  [[0, 0, 0, 0, 0, 0, 0, 0, 0, 0],
    [9720, 7776, 2187, 5670, -4536, 1134, -9720, -5670, 6804, -1458],
    [0, 0, 0, 0, 0, 0, 0, 0, 0, 0],
    [0, 0, 0, 0, 0, 0, 0, 0, 0, 0],
    [0, 0, 0, 0, 0, 0, 0, 0, 0, 0],
    [0, 0, 0, 0, 0, 0, 0, 0, 0, 0],
    [0, 0, 0, 0, 0, 0, 0, 0, 0, 0],
    [0, 0, 0, 0, 0, 0, 0, 0, 0, 0],
    [13440, 10752, 3024, 7840, -6272, 1568, -13440, -7840, 9408, -2016],
    [28800, 23040, 6480, 16800, -13440, 3360, -28800, -16800, 20160, -4320],
    [0, 0, 0, 0, 0, 0, 0, 0, 0, 0],
    [0, 0, 0, 0, 0, 0, 0, 0, 0, 0]],
  [[0, 0, 0, 0, 0, 0, 0, 0, 0, 0],
    [0, 0, 0, 0, 0, 0, 0, 0, 0, 0],
    [0, 0, 0, 0, 0, 0, 0, 0, 0, 0],
    [0, 0, 0, 0, 0, 0, 0, 0, 0, 0],
    [0, 0, 0, 0, 0, 0, 0, 0, 0, 0],
    [0, 0, 0, 0, 0, 0, 0, 0, 0, 0],
    [0, 0, 0, 0, 0, 0, 0, 0, 0, 0],
    [0, 0, 0, 0, 0, 0, 0, 0, 0, 0],
    [0, 0, 0, 0, 0, 0, 0, 0, 0, 0],
    [0, 0, 0, 0, 0, 0, 0, 0, 0, 0],
    [0, 0, 0, 0, 0, 0, 0, 0, 0, 0],
    [0, 0, 0, 0, 0, 0, 0, 0, 0, 0]]]

/-- The pivots. -/
def shortPivots : List ℕ := [6, 0, 7, 2, 3, 5, 11, 4, 10, 9]

/-- The common factors taken out. -/
def shortFactors : List ℤ := [262144, 48525156, 29707066350010368, 560462431703328, 5165344800, 33101465292, 549394566, 301987617156, 1886502250000, 1]

theorem short_steps : ∀ m < 10, Step 10 12 (shortTables.getD m []) (shortPivots.getD m 0)
    (shortFactors.getD m 0) (shortTables.getD (m + 1) []) := by decide +kernel

end Verif.Qr
