import Verif.Qr.Greedy

/-!
# Two mirrored matrices and their pivots

The matrices of the fit of two quintic segments with durations 1 and 2, and 2 and 1, column by column, and
their orthogonalisation.
-/

set_option linter.unusedSectionVars false
set_option linter.dupNamespace false
set_option maxRecDepth 100000

namespace Verif.Qr

/-- Columns of the matrix for the durations 1 and 2, step by step. -/
def thereTables : List (List (List ℤ)) := [
  [[0, 0, 0, 0, 0, 0, 1, 0, 5, 20],
    [0, 0, 0, 0, 0, 0, 1, 0, 4, 12],
    [0, 0, 0, 0, 0, 0, 1, 0, 3, 6],
    [0, 0, 2, 0, 0, 0, 1, 0, 2, 2],
    [0, 1, 0, 0, 0, 0, 1, 0, 1, 0],
    [1, 0, 0, 0, 0, 0, 1, 0, 0, 0],
    [0, 0, 0, 32, 80, 160, 0, 0, 0, 0],
    [0, 0, 0, 16, 32, 48, 0, 0, 0, 0],
    [0, 0, 0, 8, 12, 12, 0, 0, 0, 0],
    [0, 0, 0, 4, 4, 2, 0, 0, 0, -2],
    [0, 0, 0, 2, 1, 0, 0, 0, -1, 0],
    [0, 0, 0, 1, 0, 0, 0, 1, 0, 0]],
  [[0, 0, 0, 0, 0, 0, 129, 0, 645, 2580],
    [0, 0, 0, 0, 0, 0, 129, 0, 516, 1548],
    [0, 0, 0, 0, 0, 0, 129, 0, 387, 774],
    [0, 0, 258, 0, 0, 0, 129, 0, 258, 258],
    [0, 129, 0, 0, 0, 0, 129, 0, 129, 0],
    [129, 0, 0, 0, 0, 0, 129, 0, 0, 0],
    [0, 0, 0, 0, 0, 0, 0, 0, 0, 0],
    [0, 0, 0, 720, 768, -528, 0, 0, 0, 0],
    [0, 0, 0, 640, 568, -412, 0, 0, 0, 0],
    [0, 0, 0, 420, 276, -222, 0, 0, 0, -258],
    [0, 0, 0, 240, 84, -90, 0, 0, -129, 0],
    [0, 0, 0, 125, -10, -20, 0, 129, 0, 0]],
  [[0, 0, 0, 0, 0, 0, 0, 0, 0, 0],
    [0, 0, 0, 0, 0, 0, 7095, 0, 17157, -4644],
    [0, 0, 0, 0, 0, 0, 12470, 0, 25714, -7052],
    [0, 0, 36636, 0, 0, 0, 16125, 0, 25671, -7224],
    [0, 18318, 0, 0, 0, 0, 18060, 0, 17028, -5160],
    [18318, 0, 0, 0, 0, 0, 18275, 0, -215, -860],
    [0, 0, 0, 0, 0, 0, 0, 0, 0, 0],
    [0, 0, 0, 102240, 109056, -74976, 0, 0, 0, 0],
    [0, 0, 0, 90880, 80656, -58504, 0, 0, 0, 0],
    [0, 0, 0, 59640, 39192, -31524, 1720, 0, 8600, -2236],
    [0, 0, 0, 34080, 11928, -12780, 215, 0, -17243, 4300],
    [0, 0, 0, 17750, -1420, -2840, 0, 18318, 0, 0]],
  [[0, 0, 0, 0, 0, 0, 0, 0, 0, 0],
    [0, 0, 0, 0, 0, 0, 1155, 0, 2793, -756],
    [0, 0, 0, 0, 0, 0, 2030, 0, 4186, -1148],
    [0, 0, 5964, 0, 0, 0, 2625, 0, 4179, -1176],
    [0, 2982, 0, 0, 0, 0, 2940, 0, 2772, -840],
    [2982, 0, 0, 0, 0, 0, 2975, 0, -35, -140],
    [0, 0, 0, 0, 0, 0, 0, 0, 0, 0],
    [0, 0, 0, 0, 0, 0, 0, 0, 0, 0],
    [0, 0, 0, 1420, -1136, 284, 0, 0, 0, 0],
    [0, 0, 0, 2130, -1704, 426, 280, 0, 1400, -364],
    [0, 0, 0, 2130, -1704, 426, 35, 0, -2807, 700],
    [0, 0, 0, 1775, -1420, 355, 0, 2982, 0, 0]],
  [[0, 0, 0, 0, 0, 0, 0, 0, 0, 0],
    [0, 0, -20916, 0, 0, 0, 6720, 0, 23856, -6300],
    [0, 0, -32424, 0, 0, 0, 13720, 0, 35000, -9436],
    [0, 0, 0, 0, 0, 0, 0, 0, 0, 0],
    [0, 41118, -27216, 0, 0, 0, 28560, 0, 19152, -6216],
    [41118, 0, -10500, 0, 0, 0, 36400, 0, -7840, 140],
    [0, 0, 0, 0, 0, 0, 0, 0, 0, 0],
    [0, 0, 0, 0, 0, 0, 0, 0, 0, 0],
    [0, 0, 0, 19580, -15664, 3916, 0, 0, 0, 0],
    [0, 0, -9408, 29370, -23496, 5874, -280, 0, 12712, -3164],
    [0, 0, 16716, 29370, -23496, 5874, 7840, 0, -26992, 6356],
    [0, 0, 0, 24475, -19580, 4895, 0, 41118, 0, 0]],
  [[0, 0, 0, 0, 0, 0, 0, 0, 0, 0],
    [0, -10192, -8316, 0, 0, 0, -2240, 0, 12432, -2996],
    [0, -16240, -12600, 0, 0, 0, -1400, 0, 17640, -4340],
    [0, 0, 0, 0, 0, 0, 0, 0, 0, 0],
    [0, 0, 0, 0, 0, 0, 0, 0, 0, 0],
    [29610, -9520, -1260, 0, 0, 0, 19600, 0, -10080, 1540],
    [0, 0, 0, 0, 0, 0, 0, 0, 0, 0],
    [0, 0, 0, 0, 0, 0, 0, 0, 0, 0],
    [0, 0, 0, 14100, -11280, 2820, 0, 0, 0, 0],
    [0, -4144, -4032, 21150, -16920, 4230, -3080, 0, 7224, -1652],
    [0, 6384, 7812, 21150, -16920, 4230, 10080, 0, -16464, 3612],
    [0, 0, 0, 17625, -14100, 3525, 0, 29610, 0, 0]],
  [[0, 0, 0, 0, 0, 0, 0, 0, 0, 0],
    [6720, -52976, -41748, 0, 0, 0, -6720, 0, 59696, -14588],
    [4200, -82320, -63000, 0, 0, 0, -4200, 0, 86520, -21420],
    [0, 0, 0, 0, 0, 0, 0, 0, 0, 0],
    [0, 0, 0, 0, 0, 0, 0, 0, 0, 0],
    [0, 0, 0, 0, 0, 0, 0, 0, 0, 0],
    [0, 0, 0, 0, 0, 0, 0, 0, 0, 0],
    [0, 0, 0, 0, 0, 0, 0, 0, 0, 0],
    [0, 0, 0, 70300, -56240, 14060, 0, 0, 0, 0],
    [9240, -23632, -20496, 105450, -84360, 21090, -9240, 0, 32872, -7756],
    [-30240, 41552, 40236, 105450, -84360, 21090, 30240, 0, -71792, 16436],
    [0, 0, 0, 87875, -70300, 17575, 0, 147630, 0, 0]],
  [[0, 0, 0, 0, 0, 0, 0, 0, 0, 0],
    [16080, -126764, -99897, 0, 0, 0, -16080, 0, 142844, -34907],
    [10050, -196980, -150750, 0, 0, 0, -10050, 0, 207030, -51255],
    [0, 0, 0, 0, 0, 0, 0, 0, 0, 0],
    [0, 0, 0, 0, 0, 0, 0, 0, 0, 0],
    [0, 0, 0, 0, 0, 0, 0, 0, 0, 0],
    [0, 0, 0, 0, 0, 0, 0, 0, 0, 0],
    [0, 0, 0, 0, 0, 0, 0, 0, 0, 0],
    [0, 0, 0, 105450, -84360, 21090, 0, -105450, 0, 0],
    [22110, -56548, -49044, 158175, -126540, 31635, -22110, -158175, 78658, -18559],
    [-72360, 99428, 96279, 158175, -126540, 31635, 72360, -158175, -171788, 39329],
    [0, 0, 0, 0, 0, 0, 0, 0, 0, 0]],
  [[0, 0, 0, 0, 0, 0, 0, 0, 0, 0],
    [-3200, -22388, -15831, 15990, -12792, 3198, 3200, -15990, 19188, -4957],
    [-8030, -35840, -24471, 23175, -18540, 4635, 8030, -23175, 27810, -7354],
    [0, 0, 0, 0, 0, 0, 0, 0, 0, 0],
    [0, 0, 0, 0, 0, 0, 0, 0, 0, 0],
    [0, 0, 0, 0, 0, 0, 0, 0, 0, 0],
    [0, 0, 0, 0, 0, 0, 0, 0, 0, 0],
    [0, 0, 0, 0, 0, 0, 0, 0, 0, 0],
    [6480, -8904, -8622, 12820, -10256, 2564, -6480, -12820, 15384, -3522],
    [11350, -22292, -20124, 28035, -22428, 5607, -11350, -28035, 33642, -7843],
    [0, 0, 0, 0, 0, 0, 0, 0, 0, 0],
    [0, 0, 0, 0, 0, 0, 0, 0, 0, 0]],
  [[0, 0, 0, 0, 0, 0, 0, 0, 0, 0],
    [-1350, -1260, -540, -75, 60, -15, 1350, 75, -90, -45],
    [-2430, -2268, -972, -135, 108, -27, 2430, 135, -162, -81],
    [0, 0, 0, 0, 0, 0, 0, 0, 0, 0],
    [0, 0, 0, 0, 0, 0, 0, 0, 0, 0],
    [0, 0, 0, 0, 0, 0, 0, 0, 0, 0],
    [0, 0, 0, 0, 0, 0, 0, 0, 0, 0],
    [0, 0, 0, 0, 0, 0, 0, 0, 0, 0],
    [180, 168, 72, 10, -8, 2, -180, -10, 12, 6],
    [0, 0, 0, 0, 0, 0, 0, 0, 0, 0],
    [0, 0, 0, 0, 0, 0, 0, 0, 0, 0],
    [0, 0, 0, 0, 0, 0, 0, 0, 0, 0]],
  [[0, 0, 0, 0, 0, 0, 0, 0, 0, 0],
    [0, 0, 0, 0, 0, 0, 0, 0, 0, 0],
    [0, 0, 0, 0, 0, 0, 0, 0, 0, 0],
    [0, 0, 0, 0, 0, 0, 0, 0, 0, 0],
    [0, 0, 0, 0, 0, 0, 0, 0, 0, 0],
    [0, 0, 0, 0, 0, 0, 0, 0, 0, 0],
    [0, 0, 0, 0, 0, 0, 0, 0, 0, 0],
    [0, 0, 0, 0, 0, 0, 0, 0, 0, 0],
    [0, 0, 0, 0, 0, 0, 0, 0, 0, 0],
    [0, 0, 0, 0, 0, 0, 0, 0, 0, 0],
    [0, 0, 0, 0, 0, 0, 0, 0, 0, 0],
    [0, 0, 0, 0, 0, 0, 0, 0, 0, 0]]]

/-- The pivots. -/
def therePivots : List ℕ := [6, 0, 7, 3, 4, 5, 11, 10, 9, 2]

/-- The common factors taken out. -/
def thereFactors : List ℤ := [256, 49923, 171801151488, 4446162, 5072069772, 292250700, 14529744600, 499163445225, 32688278401, 1]

theorem there_steps : ∀ m < 10, Step 10 12 (thereTables.getD m []) (therePivots.getD m 0)
    (thereFactors.getD m 0) (thereTables.getD (m + 1) []) := by decide +kernel

/-- Columns of the matrix for the durations 2 and 1, step by step. -/
def hitherTables : List (List (List ℤ)) := [
  [[0, 0, 0, 0, 0, 0, 32, 0, 80, 160],
    [0, 0, 0, 0, 0, 0, 16, 0, 32, 48],
    [0, 0, 0, 0, 0, 0, 8, 0, 12, 12],
    [0, 0, 2, 0, 0, 0, 4, 0, 4, 2],
    [0, 1, 0, 0, 0, 0, 2, 0, 1, 0],
    [1, 0, 0, 0, 0, 0, 1, 0, 0, 0],
    [0, 0, 0, 1, 5, 20, 0, 0, 0, 0],
    [0, 0, 0, 1, 4, 12, 0, 0, 0, 0],
    [0, 0, 0, 1, 3, 6, 0, 0, 0, 0],
    [0, 0, 0, 1, 2, 2, 0, 0, 0, -2],
    [0, 0, 0, 1, 1, 0, 0, 0, -1, 0],
    [0, 0, 0, 1, 0, 0, 0, 1, 0, 0]],
  [[0, 0, 0, 0, 0, 0, 0, 0, 0, 0],
    [0, 0, 0, 0, 0, 0, 720, 0, 768, -528],
    [0, 0, 0, 0, 0, 0, 640, 0, 568, -412],
    [0, 0, 258, 0, 0, 0, 420, 0, 276, -222],
    [0, 129, 0, 0, 0, 0, 240, 0, 84, -90],
    [129, 0, 0, 0, 0, 0, 125, 0, -10, -20],
    [0, 0, 0, 129, 645, 2580, 0, 0, 0, 0],
    [0, 0, 0, 129, 516, 1548, 0, 0, 0, 0],
    [0, 0, 0, 129, 387, 774, 0, 0, 0, 0],
    [0, 0, 0, 129, 258, 258, 40, 0, 100, -58],
    [0, 0, 0, 129, 129, 0, 10, 0, -104, 50],
    [0, 0, 0, 129, 0, 0, 0, 129, 0, 0]],
  [[0, 0, 0, 0, 0, 0, 0, 0, 0, 0],
    [0, 0, 0, 0, 0, 0, 102240, 0, 109056, -74976],
    [0, 0, 0, 0, 0, 0, 90880, 0, 80656, -58504],
    [0, 0, 36636, 0, 0, 0, 59640, 0, 39192, -31524],
    [0, 18318, 0, 0, 0, 0, 34080, 0, 11928, -12780],
    [18318, 0, 0, 0, 0, 0, 17750, 0, -1420, -2840],
    [0, 0, 0, 0, 0, 0, 0, 0, 0, 0],
    [0, 0, 0, 7095, 17157, -4644, 0, 0, 0, 0],
    [0, 0, 0, 12470, 25714, -7052, 0, 0, 0, 0],
    [0, 0, 0, 16125, 25671, -7224, 5680, 0, 14200, -8236],
    [0, 0, 0, 18060, 17028, -5160, 1420, 0, -14768, 7100],
    [0, 0, 0, 18275, -215, -860, 0, 18318, 0, 0]],
  [[0, 0, 0, 0, 0, 0, 0, 0, 0, 0],
    [0, 0, 0, 0, 0, 0, 0, 0, 0, 0],
    [0, 0, 0, 0, 0, 0, 1420, 0, -1136, 284],
    [0, 0, 5964, 0, 0, 0, 2130, 0, -1704, 426],
    [0, 2982, 0, 0, 0, 0, 2130, 0, -1704, 426],
    [2982, 0, 0, 0, 0, 0, 1775, 0, -1420, 355],
    [0, 0, 0, 0, 0, 0, 0, 0, 0, 0],
    [0, 0, 0, 1155, 2793, -756, 0, 0, 0, 0],
    [0, 0, 0, 2030, 4186, -1148, 0, 0, 0, 0],
    [0, 0, 0, 2625, 4179, -1176, -710, 0, 568, -142],
    [0, 0, 0, 2940, 2772, -840, 1420, 0, -1136, 284],
    [0, 0, 0, 2975, -35, -140, 0, 2982, 0, 0]],
  [[0, 0, 0, 0, 0, 0, 0, 0, 0, 0],
    [0, 0, 0, 0, 0, 0, 0, 0, 0, 0],
    [0, 0, -1704, 0, 0, 0, 2840, 0, -2272, 568],
    [0, 0, 0, 0, 0, 0, 0, 0, 0, 0],
    [0, 7242, -2556, 0, 0, 0, 4260, 0, -3408, 852],
    [7242, 0, -2130, 0, 0, 0, 3550, 0, -2840, 710],
    [0, 0, 0, 0, 0, 0, 0, 0, 0, 0],
    [0, 0, 0, 2805, 6783, -1836, 0, 0, 0, 0],
    [0, 0, 0, 4930, 10166, -2788, 0, 0, 0, 0],
    [0, 0, 852, 6375, 10149, -2856, -1420, 0, 1136, -284],
    [0, 0, -1704, 7140, 6732, -2040, 2840, 0, -2272, 568],
    [0, 0, 0, 7225, -85, -340, 0, 7242, 0, 0]],
  [[0, 0, 0, 0, 0, 0, 0, 0, 0, 0],
    [0, 0, 0, 0, 0, 0, 0, 0, 0, 0],
    [0, 0, -14796, 3000, 4776, -1344, 24660, 0, -19728, 4932],
    [0, 0, 0, 0, 0, 0, 0, 0, 0, 0],
    [0, 64587, -22194, 4500, 7164, -2016, 36990, 0, -29592, 7398],
    [64587, 0, -18495, 3750, 5970, -1680, 30825, 0, -24660, 6165],
    [0, 0, 0, 0, 0, 0, 0, 0, 0, 0],
    [0, 0, -4482, -8520, 7104, -1350, 7470, 0, -5976, 1494],
    [0, 0, -6948, -8020, 7900, -1574, 11580, 0, -9264, 2316],
    [0, 0, 0, 0, 0, 0, 0, 0, 0, 0],
    [0, 0, -20628, 23040, -4656, 12, 34380, 0, -27504, 6876],
    [0, 0, -2250, 47600, -27560, 4510, 3750, 64587, -3000, 750]],
  [[0, 0, 0, 0, 0, 0, 0, 0, 0, 0],
    [0, 0, 0, 0, 0, 0, 0, 0, 0, 0],
    [0, 0, -25596, 3000, 9576, -2544, 42660, -3000, -34128, 8532],
    [0, 0, 0, 0, 0, 0, 0, 0, 0, 0],
    [0, 112187, -38394, 4500, 14364, -3816, 63990, -4500, -51192, 12798],
    [112187, 0, -31995, 3750, 11970, -3180, 53325, -3750, -42660, 10665],
    [0, 0, 0, 0, 0, 0, 0, 0, 0, 0],
    [0, 0, -8082, -8520, 8704, -1750, 13470, 8520, -10776, 2694],
    [0, 0, -12348, -8020, 10300, -2174, 20580, 8020, -16464, 4116],
    [0, 0, 0, 0, 0, 0, 0, 0, 0, 0],
    [0, 0, -35028, 23040, 1744, -1588, 58380, -23040, -46704, 11676],
    [0, 0, 0, 0, 0, 0, 0, 0, 0, 0]],
  [[0, 0, 0, 0, 0, 0, 0, 0, 0, 0],
    [0, 0, 0, 0, 0, 0, 0, 0, 0, 0],
    [0, -51192, -25596, 3000, 9576, -2544, 42660, -3000, -34128, 8532],
    [0, 0, 0, 0, 0, 0, 0, 0, 0, 0],
    [0, 0, 0, 0, 0, 0, 0, 0, 0, 0],
    [188975, -63990, -31995, 3750, 11970, -3180, 53325, -3750, -42660, 10665],
    [0, 0, 0, 0, 0, 0, 0, 0, 0, 0],
    [0, -16164, -8082, -15000, 12592, -2398, 13470, 15000, -10776, 2694],
    [0, -24696, -12348, -14500, 14188, -2822, 20580, 14500, -16464, 4116],
    [0, 0, 0, 0, 0, 0, 0, 0, 0, 0],
    [0, -70056, -35028, 36000, -6032, -292, 58380, -36000, -46704, 11676],
    [0, 0, 0, 0, 0, 0, 0, 0, 0, 0]],
  [[0, 0, 0, 0, 0, 0, 0, 0, 0, 0],
    [0, 0, 0, 0, 0, 0, 0, 0, 0, 0],
    [-21330, -25596, -12798, 1500, 4788, -1272, 21330, -1500, -17064, 4266],
    [0, 0, 0, 0, 0, 0, 0, 0, 0, 0],
    [0, 0, 0, 0, 0, 0, 0, 0, 0, 0],
    [0, 0, 0, 0, 0, 0, 0, 0, 0, 0],
    [0, 0, 0, 0, 0, 0, 0, 0, 0, 0],
    [-6735, -8082, -4041, -9750, 7646, -1424, 6735, 9750, -5388, 1347],
    [-10290, -12348, -6174, -9500, 8444, -1636, 10290, 9500, -8232, 2058],
    [0, 0, 0, 0, 0, 0, 0, 0, 0, 0],
    [-29190, -35028, -17514, 22500, -5716, 304, 29190, -22500, -23352, 5838],
    [0, 0, 0, 0, 0, 0, 0, 0, 0, 0]],
  [[0, 0, 0, 0, 0, 0, 0, 0, 0, 0],
    [0, 0, 0, 0, 0, 0, 0, 0, 0, 0],
    [-90, -108, -54, -240, 168, -30, 90, 240, -72, 18],
    [0, 0, 0, 0, 0, 0, 0, 0, 0, 0],
    [0, 0, 0, 0, 0, 0, 0, 0, 0, 0],
    [0, 0, 0, 0, 0, 0, 0, 0, 0, 0],
    [0, 0, 0, 0, 0, 0, 0, 0, 0, 0],
    [-90, -108, -54, -240, 168, -30, 90, 240, -72, 18],
    [-105, -126, -63, -280, 196, -35, 105, 280, -84, 21],
    [0, 0, 0, 0, 0, 0, 0, 0, 0, 0],
    [0, 0, 0, 0, 0, 0, 0, 0, 0, 0],
    [0, 0, 0, 0, 0, 0, 0, 0, 0, 0]],
  [[0, 0, 0, 0, 0, 0, 0, 0, 0, 0],
    [0, 0, 0, 0, 0, 0, 0, 0, 0, 0],
    [0, 0, 0, 0, 0, 0, 0, 0, 0, 0],
    [0, 0, 0, 0, 0, 0, 0, 0, 0, 0],
    [0, 0, 0, 0, 0, 0, 0, 0, 0, 0],
    [0, 0, 0, 0, 0, 0, 0, 0, 0, 0],
    [0, 0, 0, 0, 0, 0, 0, 0, 0, 0],
    [0, 0, 0, 0, 0, 0, 0, 0, 0, 0],
    [0, 0, 0, 0, 0, 0, 0, 0, 0, 0],
    [0, 0, 0, 0, 0, 0, 0, 0, 0, 0],
    [0, 0, 0, 0, 0, 0, 0, 0, 0, 0],
    [0, 0, 0, 0, 0, 0, 0, 0, 0, 0]]]

/-- The pivots. -/
def hitherPivots : List ℕ := [0, 6, 1, 3, 9, 11, 4, 5, 10, 8]

/-- The common factors taken out. -/
def hitherFactors : List ℤ := [256, 49923, 171801151488, 17784648, 17482188, 4171480569, 12585922969, 71423101250, 234837160000, 1]

theorem hither_steps : ∀ m < 10, Step 10 12 (hitherTables.getD m []) (hitherPivots.getD m 0)
    (hitherFactors.getD m 0) (hitherTables.getD (m + 1) []) := by decide +kernel

end Verif.Qr
