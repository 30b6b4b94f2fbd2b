import Mathlib.Data.Fin.Basic

/-!
# The pattern tables (yuca/patterns.py)

The numbers of the tables in hundredths, row by row; all of them have at most two decimals.
-/

namespace Yuca

/-- The list of `get_orbium`, before `np.reshape(orbium, (20,20))` (yuca/patterns.py:214-233). -/
def orbiumList : List Nat := [
    0, 0, 0, 0, 0, 0, 10, 14, 10, 0, 0, 3, 3, 0, 0, 30, 0, 0, 0, 0, 0, 0, 0, 0, 0, 8, 24, 30, 30,
    18, 14, 15, 16, 15, 9, 20, 0, 0, 0, 0, 0, 0, 0, 0, 0, 15, 34, 44, 46, 38, 18, 14, 11, 13, 19,
    18, 45, 0, 0, 0, 0, 0, 0, 0, 6, 13, 39, 50, 50, 37, 6, 0, 0, 0, 2, 16, 68, 0, 0, 0, 0, 0, 0,
    11, 17, 17, 33, 40, 38, 28, 14, 0, 0, 0, 0, 0, 18, 42, 0, 0, 0, 0, 9, 18, 13, 6, 8, 26, 32,
    32, 27, 0, 0, 0, 0, 0, 0, 82, 0, 0, 27, 0, 16, 12, 0, 0, 0, 25, 38, 44, 45, 34, 0, 0, 0, 0,
    0, 22, 17, 0, 0, 7, 20, 2, 0, 0, 0, 31, 48, 57, 60, 57, 0, 0, 0, 0, 0, 0, 49, 0, 0, 59, 19,
    0, 0, 0, 0, 20, 57, 69, 76, 76, 49, 0, 0, 0, 0, 0, 36, 0, 0, 58, 19, 0, 0, 0, 0, 0, 67, 83,
    90, 92, 87, 12, 0, 0, 0, 0, 22, 7, 0, 0, 46, 0, 0, 0, 0, 0, 70, 93, 100, 100, 100, 61, 0, 0,
    0, 0, 18, 11, 0, 0, 82, 0, 0, 0, 0, 0, 47, 100, 100, 98, 100, 96, 27, 0, 0, 0, 19, 10, 0, 0,
    46, 0, 0, 0, 0, 0, 25, 100, 100, 84, 92, 97, 54, 14, 4, 10, 21, 5, 0, 0, 0, 40, 0, 0, 0, 0,
    9, 80, 100, 82, 80, 85, 63, 31, 18, 19, 20, 1, 0, 0, 0, 36, 10, 0, 0, 0, 5, 54, 86, 79, 74,
    72, 60, 39, 28, 24, 13, 0, 0, 0, 0, 1, 30, 7, 0, 0, 8, 36, 64, 70, 64, 60, 51, 39, 29, 19, 4,
    0, 0, 0, 0, 0, 10, 24, 14, 10, 15, 29, 45, 53, 52, 46, 40, 31, 21, 8, 0, 0, 0, 0, 0, 0, 0, 8,
    21, 21, 22, 29, 36, 39, 37, 33, 26, 18, 9, 0, 0, 0, 0, 0, 0, 0, 0, 0, 3, 13, 19, 22, 24, 24,
    23, 18, 13, 5, 0, 0, 0, 0, 0, 0, 0, 0, 0, 0, 0, 0, 2, 6, 8, 9, 7, 5, 1, 0, 0, 0, 0, 0]

/-- `get_geminium` (yuca/patterns.py:158-208). -/
def geminiumTable : List (List Nat) := [
    [0, 0, 0, 0, 0, 0, 0, 0, 0, 0, 0, 0, 0, 0, 0, 0, 0, 0, 0, 0, 0, 0, 0, 0, 0, 0, 0, 0, 0, 0, 0,
    0, 0, 0, 0, 0, 0, 1, 2, 3, 4, 4, 4, 3, 2, 0, 0, 0, 0, 0, 0, 0, 0, 0, 0],
    [0, 0, 0, 0, 0, 0, 0, 0, 0, 0, 0, 0, 0, 0, 0, 0, 0, 0, 0, 0, 0, 0, 0, 0, 0, 0, 0, 0, 0, 0, 0,
    0, 0, 0, 0, 4, 10, 16, 20, 23, 25, 24, 21, 18, 14, 10, 7, 3, 0, 0, 0, 0, 0, 0, 0],
    [0, 0, 0, 0, 0, 0, 0, 0, 0, 0, 0, 0, 0, 0, 0, 0, 0, 0, 0, 0, 0, 0, 0, 0, 0, 0, 0, 0, 0, 0, 0,
    0, 0, 1, 9, 20, 33, 44, 52, 56, 58, 55, 51, 44, 37, 30, 23, 16, 8, 1, 0, 0, 0, 0, 0],
    [0, 0, 0, 0, 0, 0, 0, 0, 0, 0, 0, 0, 0, 0, 0, 0, 0, 0, 0, 0, 0, 0, 0, 0, 0, 0, 0, 0, 0, 0, 0,
    0, 0, 13, 29, 45, 60, 75, 85, 90, 91, 88, 82, 74, 64, 55, 46, 36, 25, 12, 3, 0, 0, 0, 0],
    [0, 0, 0, 0, 0, 0, 0, 0, 0, 0, 0, 0, 0, 0, 0, 0, 0, 0, 0, 0, 0, 0, 0, 0, 0, 0, 0, 0, 0, 0, 0,
    0, 14, 38, 60, 78, 93, 100, 100, 100, 100, 100, 100, 99, 89, 78, 67, 56, 44, 30, 15, 4, 0, 0,
    0],
    [0, 0, 0, 0, 0, 0, 0, 0, 0, 0, 0, 0, 0, 0, 0, 0, 0, 0, 0, 0, 0, 0, 0, 0, 0, 0, 0, 0, 0, 0, 0,
    8, 39, 74, 100, 100, 100, 100, 100, 100, 100, 100, 100, 100, 100, 98, 85, 74, 62, 47, 30, 14,
    3, 0, 0],
    [0, 0, 0, 0, 0, 0, 0, 0, 0, 0, 0, 0, 0, 0, 0, 0, 0, 0, 0, 0, 0, 0, 0, 0, 0, 0, 0, 0, 0, 0, 0,
    32, 76, 100, 100, 100, 100, 100, 100, 100, 100, 100, 100, 100, 100, 100, 100, 88, 75, 61, 45,
    27, 11, 1, 0],
    [0, 0, 0, 0, 0, 0, 0, 0, 0, 0, 0, 0, 0, 0, 0, 0, 0, 0, 0, 0, 0, 0, 0, 0, 0, 0, 0, 0, 0, 0,
    35, 83, 100, 100, 100, 100, 100, 100, 100, 100, 100, 100, 100, 100, 100, 100, 100, 100, 88,
    73, 57, 38, 19, 5, 0],
    [0, 0, 0, 0, 0, 0, 0, 0, 0, 0, 0, 0, 0, 0, 0, 0, 0, 0, 0, 0, 0, 0, 0, 0, 0, 0, 0, 0, 0, 50,
    100, 100, 100, 100, 100, 100, 100, 99, 100, 100, 100, 100, 99, 100, 100, 100, 100, 100, 100,
    85, 67, 47, 27, 11, 1],
    [0, 0, 0, 0, 0, 0, 0, 0, 0, 0, 0, 0, 0, 0, 0, 0, 0, 0, 0, 0, 0, 0, 0, 0, 0, 0, 0, 0, 55, 100,
    100, 100, 100, 100, 100, 100, 93, 83, 79, 84, 88, 89, 90, 93, 98, 100, 100, 100, 100, 98, 79,
    57, 34, 15, 3],
    [0, 0, 0, 0, 0, 0, 0, 0, 0, 0, 0, 0, 0, 0, 0, 0, 0, 0, 0, 0, 0, 0, 0, 0, 0, 0, 0, 47, 100,
    100, 100, 100, 100, 100, 100, 90, 72, 54, 44, 48, 60, 70, 76, 82, 91, 99, 100, 100, 100, 100,
    91, 67, 41, 19, 5],
    [0, 0, 0, 0, 0, 0, 0, 0, 0, 0, 0, 0, 0, 0, 0, 0, 0, 0, 0, 0, 0, 0, 0, 0, 0, 0, 27, 99, 100,
    100, 100, 100, 90, 71, 65, 55, 38, 20, 14, 21, 36, 52, 64, 73, 84, 95, 100, 100, 100, 100,
    100, 78, 49, 24, 7],
    [0, 0, 0, 0, 0, 0, 0, 0, 0, 0, 0, 0, 0, 0, 0, 0, 0, 0, 0, 0, 0, 0, 0, 0, 0, 14, 63, 96, 100,
    100, 100, 84, 17, 0, 0, 0, 0, 0, 0, 0, 13, 35, 51, 64, 77, 91, 99, 100, 100, 100, 100, 88,
    58, 29, 9],
    [0, 0, 0, 0, 0, 0, 0, 0, 0, 0, 0, 0, 0, 0, 0, 0, 0, 0, 0, 0, 0, 0, 0, 0, 7, 38, 72, 95, 100,
    100, 100, 22, 0, 0, 0, 0, 0, 0, 0, 0, 0, 11, 33, 50, 67, 86, 99, 100, 100, 100, 100, 95, 64,
    33, 10],
    [0, 0, 0, 0, 0, 0, 0, 0, 0, 0, 0, 0, 0, 0, 0, 0, 0, 0, 0, 0, 0, 0, 0, 32, 49, 71, 93, 100,
    100, 100, 56, 0, 0, 0, 0, 0, 0, 0, 0, 0, 0, 0, 10, 31, 52, 79, 98, 100, 100, 100, 100, 98,
    67, 35, 11],
    [0, 0, 0, 0, 0, 0, 0, 0, 0, 0, 0, 0, 0, 0, 0, 0, 0, 0, 0, 0, 0, 0, 1, 60, 83, 98, 100, 100,
    68, 0, 0, 0, 0, 0, 0, 0, 0, 0, 0, 0, 0, 0, 0, 15, 38, 71, 97, 100, 100, 100, 100, 97, 67, 35,
    11],
    [0, 0, 0, 0, 0, 0, 0, 0, 0, 0, 0, 0, 0, 0, 0, 0, 0, 0, 0, 0, 0, 0, 0, 51, 96, 100, 100, 18,
    0, 0, 0, 0, 0, 0, 0, 0, 0, 0, 0, 0, 0, 0, 0, 9, 34, 68, 95, 100, 100, 100, 100, 91, 61, 32,
    10],
    [0, 0, 0, 0, 0, 0, 0, 0, 0, 0, 0, 0, 0, 0, 0, 0, 0, 0, 0, 0, 0, 0, 13, 56, 99, 100, 100, 0,
    0, 0, 0, 0, 0, 0, 0, 0, 0, 0, 0, 0, 0, 0, 0, 17, 45, 76, 96, 100, 100, 100, 100, 82, 52, 26,
    7],
    [0, 0, 0, 0, 0, 0, 0, 0, 0, 0, 0, 0, 0, 0, 0, 0, 0, 0, 0, 0, 0, 33, 70, 94, 100, 100, 44, 0,
    0, 0, 0, 0, 0, 0, 0, 0, 0, 0, 0, 0, 0, 0, 0, 33, 68, 91, 99, 100, 100, 100, 100, 71, 42, 19,
    3],
    [0, 0, 0, 0, 0, 0, 0, 0, 0, 0, 0, 0, 0, 0, 0, 0, 0, 0, 0, 0, 53, 89, 100, 100, 100, 80, 43,
    4, 0, 0, 0, 0, 0, 0, 0, 0, 0, 0, 0, 0, 0, 0, 0, 47, 86, 100, 100, 100, 100, 100, 95, 58, 32,
    12, 0],
    [0, 0, 0, 0, 0, 0, 0, 0, 0, 0, 0, 0, 0, 0, 0, 0, 0, 0, 0, 0, 77, 99, 100, 97, 58, 41, 33, 18,
    0, 0, 0, 0, 0, 0, 0, 0, 0, 0, 0, 0, 0, 0, 0, 54, 95, 100, 100, 100, 100, 100, 80, 44, 21, 6,
    0],
    [0, 0, 0, 0, 0, 0, 0, 0, 0, 0, 0, 0, 0, 0, 0, 0, 0, 0, 0, 39, 83, 100, 100, 55, 11, 5, 15,
    22, 6, 0, 0, 0, 0, 0, 0, 0, 0, 0, 0, 0, 0, 0, 0, 58, 99, 100, 100, 100, 100, 100, 59, 29, 11,
    1, 0],
    [0, 0, 0, 0, 0, 0, 0, 0, 0, 0, 0, 0, 0, 0, 0, 0, 4, 55, 81, 86, 97, 100, 100, 50, 0, 0, 1, 9,
    3, 0, 0, 0, 0, 0, 0, 0, 0, 0, 0, 0, 0, 0, 26, 78, 100, 100, 100, 100, 100, 66, 35, 13, 3, 0,
    0],
    [0, 0, 0, 0, 0, 0, 0, 0, 0, 0, 0, 0, 0, 0, 0, 0, 33, 100, 100, 100, 100, 100, 100, 93, 11, 0,
    0, 0, 0, 0, 0, 0, 0, 0, 0, 0, 0, 0, 0, 0, 23, 73, 95, 100, 100, 100, 100, 100, 62, 35, 12, 0,
    0, 0, 0],
    [0, 0, 0, 0, 0, 0, 0, 0, 0, 0, 0, 0, 0, 0, 0, 0, 51, 100, 100, 100, 100, 100, 100, 100, 72,
    0, 0, 0, 0, 0, 0, 0, 0, 0, 0, 0, 0, 0, 0, 0, 100, 100, 100, 100, 100, 100, 100, 56, 25, 9, 0,
    0, 0, 0, 0],
    [0, 0, 0, 0, 0, 0, 0, 0, 0, 0, 0, 0, 0, 0, 12, 38, 100, 100, 100, 66, 8, 55, 100, 100, 100,
    3, 0, 0, 0, 0, 0, 0, 0, 0, 0, 0, 0, 0, 0, 35, 100, 100, 100, 100, 100, 100, 67, 12, 0, 0, 0,
    0, 0, 0, 0],
    [0, 0, 0, 0, 0, 0, 0, 0, 0, 0, 0, 0, 60, 100, 100, 100, 100, 100, 100, 49, 0, 0, 87, 100, 88,
    0, 0, 0, 0, 0, 0, 0, 0, 0, 0, 0, 0, 0, 0, 100, 100, 100, 100, 100, 100, 70, 7, 0, 0, 0, 0, 0,
    0, 0, 0],
    [0, 0, 0, 0, 0, 0, 0, 0, 0, 4, 21, 48, 100, 100, 100, 100, 100, 100, 100, 100, 0, 0, 4, 42,
    26, 0, 0, 0, 0, 0, 0, 0, 0, 0, 12, 21, 34, 58, 100, 100, 100, 99, 97, 99, 46, 0, 0, 0, 0, 0,
    0, 0, 0, 0, 0],
    [0, 0, 0, 0, 0, 0, 0, 0, 0, 50, 100, 100, 100, 100, 96, 0, 31, 100, 100, 100, 53, 0, 0, 0, 0,
    0, 0, 0, 0, 20, 21, 0, 0, 0, 27, 100, 100, 100, 100, 100, 100, 87, 52, 1, 0, 0, 0, 0, 0, 0,
    0, 0, 0, 0, 0],
    [0, 0, 0, 0, 0, 0, 0, 0, 84, 100, 100, 100, 100, 100, 0, 0, 0, 83, 100, 100, 52, 0, 0, 0, 0,
    0, 0, 0, 26, 82, 59, 2, 0, 0, 46, 100, 100, 100, 100, 100, 90, 55, 0, 0, 0, 0, 0, 0, 0, 0, 0,
    0, 0, 0, 0],
    [0, 0, 0, 0, 0, 0, 0, 39, 99, 100, 100, 100, 100, 78, 4, 0, 0, 0, 93, 92, 0, 0, 0, 0, 0, 0,
    0, 0, 69, 100, 100, 36, 0, 0, 100, 100, 65, 66, 97, 87, 54, 0, 0, 0, 0, 0, 0, 0, 0, 0, 0, 0,
    0, 0, 0],
    [0, 0, 0, 0, 55, 75, 59, 74, 100, 100, 0, 0, 75, 71, 18, 0, 0, 0, 0, 0, 0, 0, 0, 0, 0, 29, 0,
    0, 45, 100, 100, 100, 100, 100, 100, 100, 47, 39, 71, 25, 0, 0, 0, 0, 0, 0, 0, 0, 0, 0, 0, 0,
    0, 0, 0],
    [0, 0, 0, 0, 69, 81, 80, 92, 100, 13, 0, 0, 13, 94, 58, 0, 0, 0, 0, 0, 0, 0, 0, 0, 100, 100,
    34, 0, 4, 100, 100, 100, 100, 100, 100, 100, 24, 0, 0, 0, 0, 0, 0, 0, 0, 0, 0, 0, 0, 0, 0, 0,
    0, 0, 0],
    [0, 0, 0, 0, 63, 85, 90, 98, 100, 9, 0, 0, 2, 100, 64, 0, 0, 0, 0, 0, 0, 0, 0, 59, 100, 100,
    84, 0, 0, 100, 100, 100, 100, 100, 100, 64, 0, 0, 0, 0, 0, 0, 0, 0, 0, 0, 0, 0, 0, 0, 0, 0,
    0, 0, 0],
    [0, 0, 0, 0, 64, 65, 67, 100, 100, 21, 1, 0, 4, 2, 0, 0, 0, 0, 0, 0, 0, 0, 0, 69, 100, 100,
    100, 29, 37, 100, 100, 60, 63, 100, 84, 0, 0, 0, 0, 0, 0, 0, 0, 0, 0, 0, 0, 0, 0, 0, 0, 0, 0,
    0, 0],
    [0, 0, 0, 0, 44, 73, 73, 85, 100, 97, 23, 5, 0, 0, 0, 0, 0, 0, 0, 0, 6, 0, 0, 0, 97, 100,
    100, 100, 100, 100, 100, 33, 24, 67, 0, 0, 0, 0, 0, 0, 0, 0, 0, 0, 0, 0, 0, 0, 0, 0, 0, 0, 0,
    0, 0],
    [0, 0, 0, 12, 55, 90, 90, 100, 100, 100, 43, 4, 0, 0, 0, 0, 0, 0, 0, 31, 54, 0, 0, 0, 88,
    100, 100, 100, 100, 100, 100, 0, 0, 0, 0, 0, 0, 0, 0, 0, 0, 0, 0, 0, 0, 0, 0, 0, 0, 0, 0, 0,
    0, 0, 0],
    [0, 0, 0, 29, 71, 100, 100, 100, 100, 79, 28, 0, 0, 0, 0, 0, 0, 0, 0, 40, 77, 54, 0, 0, 87,
    100, 100, 100, 100, 100, 31, 0, 0, 0, 0, 0, 0, 0, 0, 0, 0, 0, 0, 0, 0, 0, 0, 0, 0, 0, 0, 0,
    0, 0, 0],
    [0, 16, 27, 41, 72, 99, 100, 100, 82, 42, 9, 0, 0, 0, 0, 0, 0, 0, 0, 10, 55, 58, 58, 77, 99,
    100, 100, 100, 100, 63, 0, 0, 0, 0, 0, 0, 0, 0, 0, 0, 0, 0, 0, 0, 0, 0, 0, 0, 0, 0, 0, 0, 0,
    0, 0],
    [31, 48, 45, 46, 63, 88, 100, 83, 59, 28, 6, 0, 0, 0, 0, 0, 0, 0, 0, 0, 32, 70, 95, 100, 100,
    100, 100, 70, 58, 12, 4, 0, 0, 0, 0, 0, 0, 0, 0, 0, 0, 0, 0, 0, 0, 0, 0, 0, 0, 0, 0, 0, 0, 0,
    0],
    [23, 54, 53, 48, 57, 59, 65, 63, 55, 35, 13, 3, 2, 9, 74, 100, 9, 0, 0, 0, 32, 86, 100, 100,
    100, 100, 57, 44, 31, 16, 1, 0, 0, 0, 0, 0, 0, 0, 0, 0, 0, 0, 0, 0, 0, 0, 0, 0, 0, 0, 0, 0,
    0, 0, 0],
    [0, 31, 45, 31, 18, 28, 39, 47, 54, 50, 35, 20, 16, 28, 75, 100, 42, 1, 0, 0, 60, 100, 100,
    100, 100, 51, 29, 9, 0, 0, 0, 0, 0, 0, 0, 0, 0, 0, 0, 0, 0, 0, 0, 0, 0, 0, 0, 0, 0, 0, 0, 0,
    0, 0, 0],
    [0, 0, 0, 0, 0, 14, 30, 40, 54, 71, 74, 65, 49, 35, 27, 47, 60, 60, 72, 98, 100, 100, 100,
    100, 65, 33, 0, 0, 0, 0, 0, 0, 0, 0, 0, 0, 0, 0, 0, 0, 0, 0, 0, 0, 0, 0, 0, 0, 0, 0, 0, 0, 0,
    0, 0],
    [0, 0, 0, 0, 0, 6, 33, 53, 69, 94, 99, 100, 84, 41, 16, 15, 96, 100, 100, 100, 100, 100, 100,
    100, 73, 13, 0, 0, 0, 0, 0, 0, 0, 0, 0, 0, 0, 0, 0, 0, 0, 0, 0, 0, 0, 0, 0, 0, 0, 0, 0, 0, 0,
    0, 0],
    [0, 0, 0, 0, 0, 0, 42, 86, 98, 98, 99, 100, 94, 63, 32, 62, 100, 100, 100, 100, 100, 100,
    100, 65, 23, 0, 0, 0, 0, 0, 0, 0, 0, 0, 0, 0, 0, 0, 0, 0, 0, 0, 0, 0, 0, 0, 0, 0, 0, 0, 0, 0,
    0, 0, 0],
    [0, 0, 0, 0, 0, 7, 62, 95, 100, 100, 99, 98, 99, 100, 100, 100, 100, 100, 100, 100, 98, 14,
    0, 0, 0, 0, 0, 0, 0, 0, 0, 0, 0, 0, 0, 0, 0, 0, 0, 0, 0, 0, 0, 0, 0, 0, 0, 0, 0, 0, 0, 0, 0,
    0, 0],
    [0, 0, 0, 0, 0, 3, 46, 89, 100, 100, 97, 83, 75, 81, 94, 100, 100, 100, 100, 99, 3, 0, 0, 0,
    0, 0, 0, 0, 0, 0, 0, 0, 0, 0, 0, 0, 0, 0, 0, 0, 0, 0, 0, 0, 0, 0, 0, 0, 0, 0, 0, 0, 0, 0, 0],
    [0, 0, 0, 0, 0, 0, 14, 57, 88, 93, 81, 58, 45, 48, 64, 86, 97, 99, 99, 42, 0, 0, 0, 0, 0, 0,
    0, 0, 0, 0, 0, 0, 0, 0, 0, 0, 0, 0, 0, 0, 0, 0, 0, 0, 0, 0, 0, 0, 0, 0, 0, 0, 0, 0, 0],
    [0, 0, 0, 0, 0, 0, 0, 0, 23, 45, 47, 39, 29, 19, 20, 46, 28, 3, 0, 0, 0, 0, 0, 0, 0, 0, 0, 0,
    0, 0, 0, 0, 0, 0, 0, 0, 0, 0, 0, 0, 0, 0, 0, 0, 0, 0, 0, 0, 0, 0, 0, 0, 0, 0, 0],
    [0, 0, 0, 0, 0, 0, 0, 0, 0, 0, 8, 22, 24, 15, 0, 0, 0, 0, 0, 0, 0, 0, 0, 0, 0, 0, 0, 0, 0, 0,
    0, 0, 0, 0, 0, 0, 0, 0, 0, 0, 0, 0, 0, 0, 0, 0, 0, 0, 0, 0, 0, 0, 0, 0, 0],
    [0, 0, 0, 0, 0, 0, 0, 0, 0, 0, 0, 7, 22, 14, 0, 0, 0, 0, 0, 0, 0, 0, 0, 0, 0, 0, 0, 0, 0, 0,
    0, 0, 0, 0, 0, 0, 0, 0, 0, 0, 0, 0, 0, 0, 0, 0, 0, 0, 0, 0, 0, 0, 0, 0, 0]]

/-- The first channel of `get_pacman` (yuca/patterns.py:36-152). -/
def pacman0 : List (List Nat) := [
    [0, 0, 0, 0, 0, 0, 0, 0, 0, 0, 0, 1, 1, 1, 1, 1, 1, 1, 1, 1, 1, 1, 0, 0, 0, 0, 0, 0, 0, 0, 0,
    0, 0, 0, 0, 0, 0, 0, 0, 0, 1, 0, 0, 0, 0],
    [0, 0, 0, 0, 0, 0, 0, 0, 0, 0, 1, 1, 1, 2, 5, 29, 10, 2, 2, 2, 2, 1, 1, 1, 1, 0, 0, 0, 0, 0,
    0, 0, 0, 0, 0, 0, 0, 0, 1, 1, 1, 1, 1, 0, 0],
    [0, 0, 0, 0, 0, 0, 0, 0, 0, 1, 3, 3, 2, 44, 53, 65, 88, 48, 62, 82, 72, 6, 1, 1, 1, 0, 0, 0,
    0, 0, 0, 0, 0, 0, 0, 0, 0, 0, 0, 0, 1, 1, 1, 0, 0],
    [0, 0, 0, 0, 0, 0, 0, 0, 1, 2, 8, 47, 91, 90, 5, 6, 46, 99, 95, 7, 6, 35, 73, 2, 2, 1, 0, 0,
    0, 0, 0, 0, 0, 0, 0, 0, 0, 0, 0, 0, 0, 0, 0, 0, 0],
    [0, 0, 0, 0, 0, 0, 0, 1, 1, 7, 96, 99, 99, 17, 13, 16, 56, 69, 55, 12, 10, 11, 99, 58, 7, 1,
    1, 0, 0, 0, 0, 0, 0, 0, 0, 0, 0, 0, 0, 0, 0, 0, 0, 0, 0],
    [0, 0, 0, 0, 0, 0, 1, 1, 2, 95, 17, 64, 75, 44, 37, 48, 63, 73, 64, 15, 13, 45, 91, 99, 96,
    56, 1, 1, 0, 0, 0, 0, 0, 0, 0, 0, 0, 0, 0, 0, 0, 0, 0, 0, 0],
    [0, 0, 0, 0, 0, 1, 1, 2, 10, 42, 15, 20, 43, 49, 72, 80, 82, 87, 82, 68, 64, 72, 74, 31, 7,
    19, 21, 1, 1, 0, 0, 0, 0, 0, 0, 0, 0, 0, 1, 0, 0, 0, 0, 0, 0],
    [0, 0, 0, 0, 1, 2, 2, 8, 95, 17, 17, 44, 75, 65, 68, 72, 38, 48, 85, 87, 86, 84, 65, 15, 12,
    10, 84, 1, 1, 0, 0, 0, 0, 0, 0, 0, 0, 0, 1, 1, 1, 0, 0, 0, 0],
    [0, 0, 0, 1, 1, 8, 34, 94, 20, 24, 44, 82, 84, 26, 33, 9, 9, 15, 36, 62, 42, 64, 78, 26, 27,
    60, 97, 3, 1, 1, 0, 0, 0, 0, 0, 0, 0, 0, 0, 0, 0, 0, 0, 0, 0],
    [0, 0, 0, 1, 5, 84, 95, 26, 44, 40, 84, 94, 64, 17, 3, 2, 2, 2, 4, 7, 15, 66, 89, 24, 51, 73,
    95, 96, 4, 1, 0, 0, 0, 0, 0, 0, 0, 0, 0, 0, 0, 0, 0, 0, 0],
    [0, 0, 0, 1, 27, 96, 85, 47, 76, 64, 89, 96, 25, 5, 2, 2, 5, 7, 2, 2, 2, 9, 65, 43, 66, 62,
    57, 6, 65, 1, 0, 0, 0, 0, 0, 0, 0, 0, 1, 0, 0, 0, 0, 0, 0],
    [0, 0, 1, 2, 41, 96, 92, 76, 83, 72, 55, 22, 6, 3, 2, 6, 4, 3, 4, 2, 2, 3, 29, 44, 81, 76,
    69, 4, 67, 1, 0, 0, 0, 0, 0, 0, 0, 1, 1, 1, 1, 0, 0, 0, 0],
    [0, 0, 1, 2, 23, 97, 88, 68, 78, 16, 6, 3, 2, 3, 91, 49, 1, 1, 3, 4, 2, 3, 22, 39, 84, 78,
    70, 18, 13, 1, 0, 0, 0, 0, 0, 0, 0, 0, 0, 0, 0, 0, 0, 0, 0],
    [0, 0, 1, 1, 11, 95, 18, 27, 53, 7, 4, 2, 3, 11, 91, 22, 1, 1, 4, 95, 70, 4, 20, 63, 76, 71,
    33, 96, 2, 1, 1, 0, 0, 0, 0, 0, 0, 0, 0, 0, 0, 0, 0, 0, 0],
    [0, 0, 0, 1, 4, 91, 13, 12, 35, 48, 11, 4, 4, 12, 95, 4, 2, 3, 93, 87, 95, 6, 10, 44, 63, 19,
    21, 93, 2, 1, 1, 0, 0, 0, 0, 0, 0, 0, 1, 0, 0, 0, 0, 0, 0],
    [0, 0, 0, 1, 2, 95, 16, 13, 13, 99, 98, 7, 4, 4, 82, 6, 4, 5, 86, 93, 22, 9, 9, 65, 72, 24,
    15, 87, 3, 2, 1, 0, 0, 0, 0, 0, 0, 0, 1, 1, 1, 0, 0, 0, 0],
    [0, 0, 1, 1, 2, 91, 84, 18, 14, 99, 98, 8, 4, 4, 40, 7, 4, 5, 6, 5, 2, 9, 11, 77, 79, 42, 14,
    95, 3, 2, 1, 0, 0, 0, 0, 0, 0, 0, 0, 1, 1, 0, 0, 0, 0],
    [0, 0, 1, 1, 2, 24, 95, 18, 18, 98, 96, 11, 4, 4, 6, 5, 4, 4, 3, 2, 2, 9, 55, 87, 87, 85, 56,
    90, 2, 2, 1, 0, 0, 0, 0, 0, 0, 0, 0, 0, 0, 0, 0, 0, 0],
    [0, 0, 1, 2, 5, 96, 83, 13, 17, 21, 20, 21, 12, 4, 4, 4, 5, 7, 5, 4, 5, 21, 78, 89, 89, 81,
    93, 4, 1, 1, 0, 0, 0, 0, 0, 0, 0, 0, 0, 0, 0, 0, 0, 0, 0],
    [0, 0, 1, 3, 91, 95, 9, 8, 19, 20, 12, 14, 33, 38, 5, 4, 20, 97, 98, 15, 10, 14, 77, 87, 86,
    10, 40, 2, 1, 1, 0, 0, 0, 0, 0, 0, 0, 0, 0, 0, 0, 0, 0, 0, 0],
    [0, 1, 1, 4, 96, 81, 17, 9, 65, 31, 31, 85, 99, 87, 9, 6, 20, 93, 99, 13, 9, 16, 83, 88, 21,
    3, 14, 1, 1, 0, 0, 0, 0, 0, 0, 1, 1, 0, 0, 0, 0, 0, 0, 0, 0],
    [0, 1, 1, 4, 93, 94, 94, 96, 98, 12, 15, 87, 99, 73, 5, 5, 9, 99, 96, 11, 10, 26, 97, 99, 15,
    5, 5, 1, 0, 0, 0, 0, 0, 0, 0, 0, 1, 1, 1, 0, 0, 0, 0, 0, 0],
    [0, 0, 1, 2, 89, 96, 94, 45, 96, 5, 4, 15, 95, 76, 4, 5, 7, 80, 19, 7, 8, 33, 100, 92, 94,
    32, 2, 1, 0, 0, 0, 0, 0, 0, 0, 0, 0, 0, 0, 0, 0, 0, 0, 0, 0],
    [0, 0, 1, 2, 4, 56, 93, 29, 45, 5, 3, 4, 96, 92, 6, 4, 7, 90, 10, 6, 5, 20, 91, 7, 7, 2, 2,
    1, 0, 0, 0, 0, 0, 1, 1, 0, 0, 0, 0, 0, 0, 0, 0, 0, 0],
    [0, 0, 1, 1, 1, 1, 2, 2, 2, 9, 29, 75, 98, 98, 14, 5, 89, 98, 95, 46, 49, 81, 5, 4, 4, 2, 1,
    0, 0, 0, 0, 0, 0, 0, 1, 1, 0, 0, 0, 0, 0, 0, 0, 0, 0],
    [0, 0, 1, 0, 0, 1, 1, 1, 2, 1, 1, 8, 21, 78, 95, 96, 90, 7, 65, 58, 23, 2, 1, 2, 2, 1, 0, 0,
    0, 0, 0, 0, 0, 0, 0, 0, 0, 0, 0, 0, 0, 0, 0, 0, 0],
    [0, 0, 0, 0, 0, 0, 0, 1, 1, 1, 1, 1, 3, 9, 8, 8, 43, 33, 16, 2, 2, 1, 1, 1, 1, 0, 0, 0, 0, 0,
    0, 0, 0, 0, 0, 0, 0, 0, 0, 0, 0, 0, 0, 0, 0],
    [0, 0, 0, 0, 0, 0, 0, 0, 0, 0, 0, 1, 1, 2, 1, 2, 2, 3, 2, 2, 2, 1, 1, 0, 0, 0, 0, 0, 0, 0, 0,
    0, 0, 0, 0, 0, 0, 0, 0, 0, 0, 0, 0, 0, 0],
    [0, 0, 0, 1, 1, 1, 0, 0, 0, 0, 0, 1, 1, 1, 1, 1, 1, 1, 1, 1, 1, 0, 0, 0, 0, 0, 0, 0, 0, 0, 0,
    0, 0, 1, 0, 0, 0, 0, 0, 0, 0, 0, 0, 0, 0],
    [0, 0, 0, 0, 1, 1, 1, 0, 0, 0, 0, 1, 1, 0, 0, 1, 1, 1, 0, 0, 0, 0, 0, 0, 0, 0, 0, 0, 0, 0, 0,
    0, 0, 1, 0, 0, 0, 0, 0, 0, 0, 0, 0, 0, 0],
    [0, 0, 0, 0, 0, 0, 0, 0, 0, 0, 1, 1, 0, 0, 0, 0, 0, 0, 0, 0, 0, 0, 0, 0, 0, 0, 0, 0, 0, 0, 0,
    0, 0, 1, 0, 0, 0, 0, 0, 0, 0, 0, 0, 0, 0],
    [0, 0, 0, 0, 0, 0, 0, 0, 0, 0, 1, 0, 0, 0, 0, 0, 0, 0, 0, 0, 0, 0, 0, 0, 0, 0, 0, 1, 0, 0, 0,
    0, 0, 1, 0, 0, 0, 0, 0, 0, 0, 0, 0, 0, 0],
    [0, 0, 0, 0, 0, 0, 0, 0, 0, 0, 0, 0, 0, 0, 0, 0, 0, 0, 0, 0, 0, 0, 0, 0, 0, 0, 0, 0, 1, 0, 0,
    0, 0, 0, 0, 0, 0, 0, 0, 0, 0, 0, 0, 0, 0],
    [0, 0, 0, 0, 0, 0, 0, 0, 0, 0, 0, 0, 0, 0, 0, 0, 0, 0, 0, 0, 0, 0, 0, 0, 0, 0, 0, 0, 0, 0, 0,
    0, 0, 0, 0, 0, 0, 0, 0, 0, 0, 0, 0, 0, 0],
    [0, 0, 0, 0, 0, 0, 0, 0, 0, 0, 0, 0, 0, 0, 0, 0, 0, 0, 0, 0, 0, 0, 0, 0, 0, 0, 0, 0, 0, 0, 0,
    0, 0, 0, 0, 0, 0, 0, 0, 0, 0, 0, 0, 0, 0],
    [0, 0, 0, 0, 0, 0, 0, 0, 0, 0, 0, 0, 0, 0, 0, 0, 0, 0, 0, 1, 0, 0, 0, 0, 0, 0, 0, 0, 0, 0, 0,
    0, 0, 0, 0, 0, 0, 0, 0, 0, 0, 0, 0, 0, 0],
    [0, 0, 0, 0, 0, 0, 0, 0, 0, 0, 0, 0, 0, 0, 0, 0, 0, 0, 1, 0, 0, 0, 0, 0, 0, 0, 0, 0, 0, 0, 0,
    0, 0, 0, 0, 0, 0, 0, 0, 0, 0, 0, 0, 0, 0],
    [0, 0, 0, 0, 0, 0, 0, 0, 0, 0, 0, 0, 0, 0, 0, 0, 0, 0, 0, 0, 0, 0, 0, 0, 0, 0, 0, 0, 0, 0, 0,
    0, 0, 0, 0, 0, 0, 0, 0, 0, 0, 0, 0, 0, 0],
    [0, 0, 0, 0, 0, 0, 0, 0, 0, 0, 0, 0, 0, 0, 0, 0, 0, 0, 0, 0, 0, 0, 0, 0, 0, 0, 0, 0, 0, 0, 0,
    0, 0, 0, 0, 0, 0, 0, 0, 0, 0, 0, 0, 0, 0]]

/-- The second channel of `get_pacman` (yuca/patterns.py:36-152). -/
def pacman1 : List (List Nat) := [
    [0, 0, 0, 0, 0, 0, 0, 0, 0, 0, 0, 0, 0, 0, 0, 1, 1, 1, 0, 0, 0, 0, 0, 0, 0, 0, 0, 0, 0, 0, 0,
    0, 0, 0, 0, 0, 0, 0, 0, 0, 0, 0, 0, 0, 0],
    [0, 0, 0, 0, 0, 0, 0, 0, 0, 0, 0, 0, 1, 1, 1, 1, 1, 1, 1, 1, 1, 1, 0, 0, 0, 0, 0, 0, 0, 0, 0,
    0, 0, 0, 0, 0, 0, 0, 0, 0, 0, 0, 0, 0, 0],
    [0, 0, 0, 0, 0, 0, 0, 0, 0, 0, 0, 1, 1, 1, 1, 1, 1, 1, 1, 1, 1, 1, 1, 0, 0, 0, 0, 0, 0, 0, 0,
    0, 0, 0, 0, 0, 0, 0, 0, 0, 0, 0, 0, 0, 0],
    [0, 0, 0, 0, 0, 0, 0, 0, 0, 0, 1, 1, 1, 1, 1, 1, 1, 1, 1, 1, 1, 1, 1, 1, 1, 0, 0, 0, 0, 0, 0,
    0, 0, 0, 0, 0, 0, 0, 0, 0, 0, 0, 0, 0, 0],
    [0, 0, 0, 0, 0, 0, 0, 0, 1, 1, 1, 1, 1, 1, 1, 1, 1, 1, 1, 1, 1, 1, 1, 1, 1, 1, 0, 0, 0, 0, 0,
    0, 0, 0, 0, 0, 0, 0, 0, 0, 0, 0, 0, 0, 0],
    [0, 0, 0, 0, 0, 0, 0, 0, 1, 1, 1, 1, 1, 1, 1, 2, 2, 2, 1, 1, 1, 1, 1, 1, 1, 1, 1, 0, 0, 0, 0,
    0, 0, 0, 0, 0, 0, 0, 0, 0, 0, 0, 0, 0, 0],
    [0, 0, 0, 0, 0, 0, 0, 1, 1, 1, 1, 1, 2, 2, 2, 3, 3, 3, 2, 2, 2, 1, 1, 1, 1, 1, 1, 1, 0, 0, 0,
    0, 0, 0, 0, 0, 0, 0, 0, 0, 0, 0, 0, 0, 0],
    [0, 0, 0, 0, 0, 0, 1, 1, 1, 1, 1, 2, 3, 4, 5, 7, 13, 11, 5, 4, 3, 2, 2, 1, 1, 1, 1, 1, 0, 0,
    0, 0, 0, 0, 0, 0, 0, 0, 0, 0, 0, 0, 0, 0, 0],
    [0, 0, 0, 0, 0, 1, 1, 1, 1, 1, 2, 3, 5, 25, 81, 91, 92, 91, 82, 48, 18, 4, 2, 2, 1, 1, 1, 1,
    1, 0, 0, 0, 0, 0, 0, 0, 0, 0, 0, 0, 0, 0, 0, 0, 0],
    [0, 0, 0, 0, 0, 1, 1, 1, 1, 2, 3, 5, 65, 95, 98, 98, 98, 98, 98, 94, 87, 32, 4, 2, 1, 1, 1,
    1, 1, 0, 0, 0, 0, 0, 0, 0, 0, 0, 0, 0, 0, 0, 0, 0, 0],
    [0, 0, 0, 0, 1, 1, 1, 1, 1, 2, 5, 19, 96, 98, 97, 64, 33, 58, 98, 98, 98, 86, 11, 3, 2, 1, 1,
    1, 1, 0, 0, 0, 0, 0, 0, 0, 0, 0, 0, 0, 0, 0, 0, 0, 0],
    [0, 0, 0, 0, 1, 1, 1, 1, 2, 4, 10, 91, 98, 96, 11, 4, 4, 5, 14, 96, 99, 96, 63, 4, 2, 1, 1,
    1, 1, 0, 0, 0, 0, 0, 0, 0, 0, 0, 0, 0, 0, 0, 0, 0, 0],
    [0, 0, 0, 1, 1, 1, 1, 1, 2, 6, 21, 96, 97, 76, 3, 2, 3, 3, 4, 27, 95, 98, 84, 5, 2, 1, 1, 1,
    1, 0, 0, 0, 0, 0, 0, 0, 0, 0, 0, 0, 0, 0, 0, 0, 0],
    [0, 0, 0, 1, 1, 1, 1, 1, 4, 9, 36, 96, 96, 58, 3, 3, 4, 3, 3, 11, 66, 98, 89, 5, 2, 2, 1, 1,
    1, 0, 0, 0, 0, 0, 0, 0, 0, 0, 0, 0, 0, 0, 0, 0, 0],
    [0, 0, 0, 1, 1, 1, 1, 2, 5, 12, 40, 96, 97, 82, 9, 4, 4, 3, 3, 12, 93, 98, 88, 5, 2, 1, 1, 1,
    1, 0, 0, 0, 0, 0, 0, 0, 0, 0, 0, 0, 0, 0, 0, 0, 0],
    [0, 0, 0, 1, 1, 1, 1, 2, 5, 13, 29, 91, 98, 96, 80, 36, 6, 3, 5, 88, 96, 98, 78, 5, 2, 1, 1,
    1, 1, 0, 0, 0, 0, 0, 0, 0, 0, 0, 0, 0, 0, 0, 0, 0, 0],
    [0, 0, 0, 1, 1, 1, 1, 2, 5, 12, 24, 80, 97, 98, 93, 75, 29, 9, 43, 95, 98, 96, 51, 4, 2, 1,
    1, 1, 1, 0, 0, 0, 0, 0, 0, 0, 0, 0, 0, 0, 0, 0, 0, 0, 0],
    [0, 0, 0, 0, 1, 1, 1, 2, 5, 11, 21, 56, 95, 98, 98, 96, 91, 91, 96, 98, 98, 91, 8, 3, 2, 1,
    1, 1, 1, 0, 0, 0, 0, 0, 0, 0, 0, 0, 0, 0, 0, 0, 0, 0, 0],
    [0, 0, 0, 0, 1, 1, 1, 2, 4, 9, 19, 44, 89, 96, 98, 98, 97, 98, 98, 96, 93, 17, 5, 2, 2, 1, 1,
    1, 1, 0, 0, 0, 0, 0, 0, 0, 0, 0, 0, 0, 0, 0, 0, 0, 0],
    [0, 0, 0, 0, 0, 1, 1, 2, 2, 7, 16, 39, 80, 90, 91, 90, 90, 93, 91, 56, 24, 7, 3, 2, 1, 1, 1,
    1, 0, 0, 0, 0, 0, 0, 0, 0, 0, 0, 0, 0, 0, 0, 0, 0, 0],
    [0, 0, 0, 0, 0, 1, 1, 1, 2, 4, 9, 18, 33, 59, 45, 24, 21, 24, 22, 12, 8, 4, 2, 1, 1, 0, 1, 1,
    0, 0, 0, 0, 0, 0, 0, 0, 0, 0, 0, 0, 0, 0, 0, 0, 0],
    [0, 0, 0, 0, 0, 0, 0, 1, 1, 2, 4, 6, 12, 22, 18, 13, 11, 10, 9, 5, 4, 2, 1, 1, 0, 0, 1, 0, 0,
    0, 0, 0, 0, 0, 0, 0, 0, 0, 0, 0, 0, 0, 0, 0, 0],
    [0, 0, 0, 0, 0, 0, 0, 0, 1, 1, 2, 3, 4, 8, 9, 7, 6, 5, 3, 2, 2, 1, 1, 0, 0, 1, 0, 0, 0, 0, 0,
    0, 0, 0, 0, 0, 0, 0, 0, 0, 0, 0, 0, 0, 0],
    [0, 0, 0, 0, 0, 0, 0, 0, 0, 1, 1, 2, 2, 3, 3, 2, 2, 2, 1, 1, 1, 1, 0, 0, 1, 1, 0, 0, 0, 0, 0,
    0, 0, 0, 0, 0, 0, 0, 0, 0, 0, 0, 0, 0, 0],
    [0, 0, 0, 0, 0, 0, 0, 0, 0, 0, 1, 1, 1, 1, 2, 1, 1, 1, 1, 1, 1, 0, 0, 1, 1, 0, 0, 0, 0, 0, 0,
    0, 0, 0, 0, 0, 0, 0, 0, 0, 0, 0, 0, 0, 0],
    [0, 0, 0, 0, 0, 0, 0, 0, 0, 0, 0, 1, 1, 1, 1, 1, 1, 1, 1, 1, 1, 1, 1, 0, 0, 0, 0, 0, 0, 0, 0,
    0, 0, 0, 0, 0, 0, 0, 0, 0, 0, 0, 0, 0, 0],
    [0, 0, 0, 0, 0, 0, 0, 0, 0, 0, 0, 1, 0, 0, 0, 0, 1, 1, 1, 1, 1, 0, 0, 0, 0, 0, 0, 0, 0, 0, 0,
    0, 0, 0, 0, 0, 0, 0, 0, 0, 0, 0, 0, 0, 0],
    [0, 0, 0, 0, 0, 0, 0, 0, 0, 0, 0, 1, 0, 0, 0, 0, 0, 0, 0, 0, 0, 0, 0, 0, 0, 0, 0, 0, 0, 0, 0,
    0, 0, 0, 0, 0, 0, 0, 0, 0, 0, 0, 0, 0, 0],
    [0, 0, 0, 0, 0, 0, 0, 0, 0, 0, 0, 0, 0, 0, 0, 0, 0, 0, 0, 0, 0, 0, 0, 0, 0, 0, 0, 0, 0, 0, 0,
    0, 0, 0, 0, 0, 0, 0, 0, 0, 0, 0, 0, 0, 0],
    [0, 0, 0, 0, 0, 0, 0, 0, 0, 0, 0, 0, 0, 0, 0, 0, 0, 0, 0, 0, 0, 0, 0, 0, 0, 0, 0, 0, 0, 0, 0,
    0, 0, 0, 0, 0, 0, 0, 0, 0, 0, 0, 0, 0, 0],
    [0, 0, 0, 0, 0, 0, 0, 0, 0, 0, 0, 0, 0, 0, 0, 0, 0, 0, 0, 0, 0, 0, 0, 0, 0, 0, 0, 0, 0, 0, 0,
    0, 0, 0, 0, 0, 0, 0, 0, 0, 0, 0, 0, 0, 0],
    [0, 0, 0, 0, 0, 0, 0, 0, 0, 0, 0, 0, 0, 0, 0, 0, 0, 0, 0, 0, 0, 0, 0, 0, 0, 0, 0, 0, 0, 0, 0,
    0, 0, 0, 0, 0, 0, 0, 0, 0, 0, 0, 0, 0, 0],
    [0, 0, 0, 0, 0, 0, 0, 0, 0, 0, 0, 0, 0, 0, 0, 0, 0, 0, 0, 0, 0, 0, 0, 0, 0, 0, 0, 0, 0, 0, 0,
    0, 0, 0, 0, 0, 0, 0, 0, 0, 0, 0, 0, 0, 0],
    [0, 0, 0, 0, 0, 0, 0, 0, 0, 0, 0, 0, 0, 0, 0, 0, 0, 0, 0, 0, 0, 0, 0, 0, 0, 0, 0, 0, 0, 0, 0,
    0, 0, 0, 0, 0, 0, 0, 0, 0, 0, 0, 0, 0, 0],
    [0, 0, 0, 0, 0, 0, 0, 0, 0, 0, 0, 0, 0, 0, 0, 0, 0, 0, 0, 0, 0, 0, 0, 0, 0, 0, 0, 0, 0, 0, 0,
    0, 0, 0, 0, 0, 0, 0, 0, 0, 0, 0, 0, 0, 0],
    [0, 0, 0, 0, 0, 0, 0, 0, 0, 0, 0, 0, 0, 0, 0, 0, 0, 0, 0, 0, 0, 0, 0, 0, 0, 0, 0, 0, 0, 0, 0,
    0, 0, 0, 0, 0, 0, 0, 0, 0, 0, 0, 0, 0, 0],
    [0, 0, 0, 0, 0, 0, 0, 0, 0, 0, 0, 0, 0, 0, 0, 0, 0, 0, 0, 0, 0, 0, 0, 0, 0, 0, 0, 0, 0, 0, 0,
    0, 0, 0, 0, 0, 0, 0, 0, 0, 0, 0, 0, 0, 0],
    [0, 0, 0, 0, 0, 0, 0, 0, 0, 0, 0, 0, 0, 0, 0, 0, 0, 0, 0, 0, 0, 0, 0, 0, 0, 0, 0, 0, 0, 0, 0,
    0, 0, 0, 0, 0, 0, 0, 0, 0, 0, 0, 0, 0, 0],
    [0, 0, 0, 0, 0, 0, 0, 0, 0, 0, 0, 0, 0, 0, 0, 0, 0, 0, 0, 0, 0, 0, 0, 0, 0, 0, 0, 0, 0, 0, 0,
    0, 0, 0, 0, 0, 0, 0, 0, 0, 0, 0, 0, 0, 0]]

/-- The third channel of `get_pacman` (yuca/patterns.py:36-152). -/
def pacman2 : List (List Nat) := [
    [6, 6, 5, 6, 6, 7, 8, 9, 9, 7, 6, 4, 4, 4, 3, 3, 2, 2, 2, 2, 3, 3, 4, 5, 6, 8, 9, 9, 8, 9, 9,
    9, 7, 6, 4, 4, 5, 7, 10, 12, 11, 8, 5, 3, 3],
    [6, 5, 6, 6, 7, 8, 9, 8, 7, 5, 4, 3, 3, 3, 3, 3, 3, 2, 2, 2, 2, 2, 2, 3, 4, 5, 7, 9, 9, 9, 9,
    8, 6, 5, 4, 5, 10, 27, 85, 88, 87, 81, 17, 7, 4],
    [6, 5, 6, 7, 8, 9, 9, 7, 5, 4, 3, 2, 2, 3, 4, 4, 4, 3, 3, 2, 2, 2, 2, 2, 3, 4, 6, 8, 9, 9, 8,
    7, 6, 5, 5, 7, 16, 85, 92, 93, 93, 90, 77, 11, 5],
    [6, 6, 6, 7, 9, 8, 7, 5, 3, 2, 2, 2, 4, 6, 8, 13, 14, 9, 6, 5, 5, 4, 2, 2, 2, 3, 4, 6, 7, 7,
    7, 6, 5, 5, 5, 11, 59, 93, 93, 86, 90, 95, 92, 74, 9],
    [6, 6, 7, 9, 8, 6, 5, 3, 2, 2, 2, 4, 11, 44, 73, 80, 80, 75, 67, 45, 27, 9, 5, 4, 2, 3, 3, 4,
    5, 6, 6, 5, 5, 5, 5, 13, 85, 94, 84, 12, 10, 73, 94, 87, 13],
    [6, 7, 8, 9, 6, 4, 3, 2, 2, 3, 5, 17, 64, 85, 82, 69, 91, 87, 52, 87, 82, 69, 45, 9, 5, 4, 3,
    4, 4, 5, 5, 5, 5, 5, 5, 11, 70, 94, 94, 80, 18, 57, 94, 87, 15],
    [7, 8, 9, 7, 4, 3, 2, 2, 3, 5, 15, 75, 89, 76, 28, 61, 78, 16, 10, 88, 91, 86, 80, 70, 25, 7,
    4, 3, 4, 4, 4, 4, 4, 4, 4, 7, 18, 87, 93, 95, 95, 95, 92, 77, 11],
    [7, 9, 8, 5, 3, 2, 2, 2, 4, 13, 81, 90, 56, 11, 65, 82, 82, 73, 73, 84, 78, 10, 29, 89, 76,
    27, 5, 3, 3, 4, 4, 4, 4, 4, 4, 4, 6, 11, 49, 82, 85, 84, 70, 13, 7],
    [8, 9, 7, 4, 2, 2, 2, 3, 10, 62, 90, 89, 13, 48, 87, 89, 87, 89, 90, 87, 78, 30, 69, 88, 85,
    63, 7, 3, 3, 3, 4, 4, 4, 4, 3, 2, 2, 3, 4, 5, 7, 7, 6, 5, 4],
    [9, 8, 5, 3, 2, 2, 2, 6, 25, 88, 91, 79, 80, 90, 89, 72, 54, 60, 85, 89, 87, 81, 80, 49, 75,
    74, 9, 4, 2, 3, 3, 3, 3, 3, 2, 2, 1, 1, 1, 2, 2, 2, 2, 3, 4],
    [9, 7, 4, 3, 2, 2, 4, 13, 86, 92, 43, 12, 89, 89, 56, 17, 10, 11, 25, 72, 87, 87, 80, 26, 71,
    76, 11, 4, 2, 2, 3, 3, 3, 3, 2, 2, 1, 1, 1, 1, 1, 1, 2, 2, 3],
    [9, 7, 4, 2, 2, 4, 7, 81, 94, 88, 7, 11, 89, 78, 11, 4, 2, 3, 6, 26, 58, 89, 83, 11, 44, 83,
    18, 4, 2, 2, 2, 2, 2, 2, 2, 2, 1, 1, 1, 1, 1, 1, 1, 2, 3],
    [9, 6, 4, 3, 3, 8, 18, 93, 94, 86, 71, 85, 82, 21, 4, 2, 1, 1, 3, 12, 31, 90, 88, 44, 84, 85,
    31, 4, 2, 2, 2, 2, 2, 3, 2, 2, 2, 1, 1, 1, 1, 1, 1, 2, 3],
    [9, 6, 4, 3, 5, 16, 52, 96, 89, 82, 78, 88, 77, 8, 2, 1, 1, 1, 2, 9, 23, 89, 88, 64, 90, 84,
    17, 4, 2, 2, 2, 2, 3, 3, 4, 4, 4, 3, 2, 2, 1, 1, 2, 2, 4],
    [9, 6, 4, 3, 5, 20, 62, 97, 91, 76, 29, 55, 69, 5, 2, 1, 1, 1, 3, 12, 31, 89, 75, 8, 89, 84,
    14, 4, 2, 1, 1, 2, 3, 4, 9, 17, 25, 20, 12, 6, 4, 2, 2, 2, 4],
    [8, 5, 3, 3, 4, 13, 30, 96, 96, 92, 91, 89, 34, 4, 2, 1, 1, 2, 5, 33, 80, 89, 75, 9, 90, 80,
    10, 3, 2, 1, 1, 2, 4, 7, 27, 90, 93, 93, 91, 83, 15, 6, 3, 3, 4],
    [8, 5, 3, 2, 4, 9, 18, 93, 97, 96, 94, 82, 14, 4, 2, 2, 2, 3, 9, 72, 84, 89, 82, 25, 91, 76,
    9, 3, 2, 1, 1, 2, 5, 9, 61, 93, 95, 95, 94, 91, 79, 11, 5, 3, 4],
    [7, 4, 2, 2, 2, 4, 6, 22, 83, 93, 85, 38, 7, 4, 2, 2, 4, 8, 62, 85, 88, 38, 67, 89, 91, 68,
    6, 2, 2, 1, 1, 2, 5, 11, 88, 95, 82, 58, 89, 95, 93, 78, 9, 4, 4],
    [6, 3, 2, 2, 2, 2, 3, 6, 13, 18, 14, 8, 5, 4, 3, 4, 9, 58, 85, 89, 82, 7, 10, 91, 89, 29, 5,
    2, 1, 1, 1, 2, 5, 9, 85, 95, 87, 13, 11, 67, 94, 88, 15, 5, 4],
    [5, 3, 2, 1, 1, 2, 2, 3, 4, 5, 6, 5, 4, 4, 4, 8, 25, 87, 88, 79, 71, 35, 78, 92, 81, 9, 3, 2,
    1, 1, 1, 2, 3, 5, 23, 91, 95, 93, 27, 39, 93, 89, 17, 6, 4],
    [4, 2, 2, 1, 1, 1, 1, 2, 3, 3, 4, 4, 4, 4, 5, 15, 89, 92, 53, 43, 71, 89, 93, 89, 33, 5, 2,
    2, 1, 1, 1, 1, 2, 2, 6, 22, 87, 93, 95, 94, 93, 83, 13, 6, 4],
    [4, 3, 2, 2, 2, 2, 2, 2, 3, 3, 4, 4, 4, 5, 8, 34, 95, 94, 81, 81, 86, 94, 93, 75, 6, 2, 2, 1,
    1, 1, 1, 1, 1, 1, 2, 4, 10, 64, 83, 85, 78, 17, 8, 5, 5],
    [4, 5, 7, 9, 9, 6, 5, 5, 4, 3, 3, 3, 4, 5, 10, 40, 96, 98, 96, 96, 96, 95, 80, 8, 3, 2, 1, 1,
    1, 1, 1, 1, 1, 1, 1, 2, 2, 4, 7, 10, 10, 7, 5, 5, 5],
    [6, 13, 78, 87, 88, 85, 83, 71, 14, 6, 3, 2, 2, 3, 6, 16, 60, 95, 96, 94, 91, 32, 8, 3, 1, 1,
    1, 1, 1, 1, 1, 1, 1, 1, 1, 1, 1, 2, 2, 3, 4, 4, 5, 5, 6],
    [9, 47, 93, 95, 94, 95, 95, 95, 87, 14, 4, 2, 2, 2, 3, 4, 9, 14, 15, 12, 9, 5, 2, 1, 1, 1, 1,
    1, 2, 2, 2, 2, 1, 1, 1, 1, 1, 1, 2, 2, 4, 4, 5, 7, 8],
    [10, 82, 95, 86, 11, 11, 18, 95, 93, 40, 5, 2, 2, 2, 2, 2, 2, 2, 3, 2, 2, 2, 1, 1, 1, 1, 1,
    2, 4, 6, 6, 4, 2, 2, 1, 1, 1, 1, 2, 2, 4, 6, 7, 8, 9],
    [9, 55, 94, 92, 48, 20, 69, 95, 92, 15, 4, 2, 1, 1, 1, 1, 1, 1, 1, 1, 1, 1, 1, 1, 1, 1, 2, 5,
    13, 75, 80, 23, 7, 5, 2, 1, 1, 2, 2, 3, 5, 7, 9, 9, 9],
    [6, 20, 91, 95, 95, 95, 95, 94, 79, 7, 2, 1, 1, 1, 1, 1, 1, 1, 1, 1, 1, 1, 1, 1, 1, 1, 3, 13,
    88, 94, 95, 93, 82, 19, 5, 2, 2, 2, 3, 5, 7, 9, 9, 8, 8],
    [4, 8, 25, 89, 93, 93, 91, 64, 9, 3, 1, 1, 1, 1, 1, 1, 2, 2, 1, 1, 1, 1, 1, 1, 1, 2, 6, 80,
    95, 92, 87, 95, 93, 89, 13, 4, 2, 3, 4, 6, 9, 9, 8, 7, 7],
    [4, 5, 12, 33, 79, 81, 58, 15, 5, 2, 1, 1, 1, 1, 1, 2, 2, 2, 2, 1, 1, 1, 1, 1, 1, 2, 7, 85,
    95, 62, 16, 92, 95, 92, 20, 5, 3, 3, 4, 7, 9, 8, 7, 7, 7],
    [4, 4, 5, 7, 9, 8, 7, 4, 2, 1, 1, 1, 1, 2, 4, 7, 27, 23, 7, 3, 2, 1, 1, 1, 1, 2, 8, 87, 95,
    20, 9, 64, 95, 94, 50, 7, 3, 4, 5, 8, 9, 8, 7, 6, 6],
    [4, 4, 4, 4, 4, 3, 3, 2, 1, 1, 1, 1, 2, 4, 24, 85, 91, 90, 79, 10, 5, 2, 1, 1, 1, 2, 6, 81,
    95, 90, 16, 82, 95, 93, 34, 7, 4, 4, 6, 8, 9, 7, 7, 6, 6],
    [6, 5, 4, 4, 4, 3, 2, 2, 2, 1, 1, 1, 3, 13, 89, 95, 93, 94, 94, 76, 13, 3, 1, 1, 1, 2, 4, 18,
    91, 95, 94, 94, 93, 89, 15, 5, 4, 4, 6, 9, 9, 7, 7, 6, 6],
    [8, 7, 6, 5, 5, 4, 4, 2, 2, 2, 2, 2, 6, 80, 94, 91, 11, 24, 95, 88, 27, 4, 2, 1, 1, 1, 2, 7,
    36, 89, 91, 90, 75, 22, 8, 4, 4, 5, 7, 9, 9, 7, 6, 6, 6],
    [9, 9, 8, 8, 7, 6, 5, 4, 3, 2, 2, 3, 9, 88, 95, 72, 9, 75, 95, 89, 29, 4, 2, 1, 1, 1, 2, 4,
    8, 15, 19, 16, 10, 7, 4, 4, 4, 6, 8, 9, 8, 7, 6, 6, 6],
    [8, 8, 9, 9, 9, 9, 8, 7, 5, 4, 3, 4, 10, 86, 95, 89, 77, 94, 95, 75, 18, 4, 2, 2, 2, 2, 2, 3,
    4, 5, 6, 5, 4, 4, 4, 4, 5, 7, 9, 9, 7, 7, 6, 6, 6],
    [7, 7, 7, 8, 8, 9, 9, 9, 7, 5, 4, 4, 8, 29, 92, 95, 95, 95, 90, 19, 10, 4, 2, 2, 2, 2, 3, 4,
    4, 4, 4, 4, 4, 4, 4, 5, 7, 8, 9, 8, 7, 6, 6, 6, 6],
    [6, 6, 6, 7, 7, 7, 8, 9, 8, 7, 5, 4, 5, 11, 28, 85, 88, 65, 19, 8, 5, 3, 3, 3, 4, 4, 5, 5, 5,
    5, 5, 5, 5, 5, 6, 7, 8, 9, 8, 7, 7, 6, 6, 6, 6],
    [6, 6, 6, 6, 6, 7, 7, 8, 9, 8, 6, 5, 4, 5, 8, 11, 11, 9, 6, 4, 4, 4, 4, 5, 6, 7, 7, 8, 7, 7,
    7, 7, 7, 7, 8, 9, 9, 8, 7, 7, 6, 6, 6, 6, 6]]

/-- The first channel of `get_smooth_puffer` (yuca/patterns.py:242-328). -/
def smoothPuffer0 : List (List Nat) := [
    [0, 0, 0, 0, 0, 0, 0, 0, 0, 0, 0, 0, 0, 0, 0, 0, 0, 0, 0, 0, 0, 0, 0, 0, 0, 0, 0, 0],
    [0, 0, 0, 0, 0, 0, 0, 0, 0, 0, 0, 0, 15, 48, 19, 0, 0, 0, 0, 0, 0, 0, 0, 0, 0, 0, 0, 0],
    [0, 0, 0, 0, 0, 0, 0, 0, 0, 0, 0, 61, 100, 100, 0, 0, 0, 0, 0, 0, 0, 0, 0, 0, 0, 0, 0, 0],
    [0, 0, 0, 0, 0, 0, 0, 0, 12, 60, 100, 100, 100, 100, 0, 0, 0, 0, 0, 19, 61, 11, 0, 0, 0, 0,
    0, 0],
    [0, 0, 0, 0, 0, 36, 0, 0, 0, 0, 0, 100, 100, 100, 72, 40, 0, 0, 0, 91, 100, 61, 26, 0, 0, 0,
    0, 0],
    [0, 0, 0, 0, 34, 76, 10, 0, 0, 0, 0, 0, 96, 100, 96, 83, 88, 72, 86, 100, 100, 87, 44, 5, 0,
    0, 0, 0],
    [0, 0, 0, 12, 49, 89, 16, 0, 0, 0, 0, 0, 52, 96, 100, 100, 100, 100, 100, 100, 100, 100, 50,
    3, 0, 0, 0, 0],
    [0, 0, 0, 58, 82, 100, 70, 0, 0, 0, 0, 0, 0, 37, 34, 6, 0, 49, 100, 100, 100, 100, 57, 1, 0,
    0, 0, 0],
    [0, 0, 16, 17, 16, 53, 63, 82, 71, 16, 0, 0, 0, 0, 0, 0, 0, 0, 0, 52, 45, 7, 37, 5, 0, 0, 0,
    0],
    [0, 0, 0, 0, 0, 0, 14, 100, 100, 100, 43, 0, 0, 35, 3, 0, 0, 0, 0, 0, 3, 0, 0, 8, 0, 0, 0, 0],
    [0, 0, 0, 0, 0, 0, 0, 100, 100, 100, 100, 100, 100, 22, 0, 0, 0, 0, 0, 0, 0, 7, 0, 18, 0, 0,
    0, 0],
    [0, 0, 25, 0, 0, 0, 0, 1, 100, 100, 81, 40, 25, 0, 0, 0, 0, 0, 0, 0, 0, 31, 53, 48, 0, 0, 0,
    0],
    [0, 0, 63, 0, 0, 0, 0, 0, 40, 100, 14, 18, 17, 0, 0, 0, 0, 0, 7, 0, 46, 100, 100, 94, 23, 0,
    0, 0],
    [0, 0, 97, 100, 0, 0, 0, 0, 0, 100, 19, 13, 9, 0, 0, 0, 0, 91, 100, 97, 100, 100, 100, 99,
    61, 0, 0, 0],
    [0, 22, 100, 100, 100, 58, 0, 0, 0, 64, 10, 10, 0, 0, 0, 0, 0, 92, 73, 73, 88, 100, 100, 27,
    36, 11, 0, 0],
    [0, 100, 100, 100, 100, 100, 78, 0, 6, 34, 0, 0, 0, 0, 0, 0, 0, 0, 0, 29, 70, 100, 100, 0, 0,
    11, 0, 0],
    [0, 39, 0, 78, 100, 100, 88, 0, 0, 0, 0, 0, 0, 0, 0, 0, 0, 0, 0, 0, 60, 100, 82, 0, 1, 2, 0,
    0],
    [0, 0, 0, 0, 59, 85, 52, 0, 0, 0, 0, 0, 0, 0, 0, 0, 0, 0, 0, 0, 55, 100, 62, 5, 21, 0, 0, 0],
    [0, 0, 0, 0, 45, 86, 100, 0, 0, 0, 0, 0, 48, 93, 0, 0, 0, 0, 0, 0, 92, 100, 74, 37, 10, 0, 0,
    0],
    [0, 0, 0, 0, 0, 75, 100, 33, 0, 0, 0, 0, 100, 100, 22, 0, 0, 0, 0, 29, 100, 100, 49, 18, 0,
    0, 0, 0],
    [0, 0, 0, 0, 0, 88, 100, 100, 27, 0, 0, 0, 61, 100, 54, 27, 0, 0, 38, 100, 100, 60, 24, 2, 0,
    0, 0, 0],
    [0, 0, 43, 0, 95, 100, 100, 100, 12, 0, 0, 0, 66, 100, 84, 75, 78, 90, 100, 100, 65, 27, 14,
    0, 0, 0, 0, 0],
    [0, 0, 0, 97, 100, 100, 100, 100, 0, 0, 7, 43, 100, 100, 100, 100, 100, 100, 100, 58, 27, 17,
    0, 0, 0, 0, 0, 0],
    [0, 0, 0, 9, 48, 87, 100, 100, 0, 0, 0, 0, 100, 100, 100, 81, 33, 29, 49, 30, 12, 0, 0, 0, 0,
    0, 0, 0],
    [0, 0, 0, 0, 14, 22, 21, 19, 12, 0, 0, 45, 98, 100, 42, 0, 0, 9, 28, 5, 0, 0, 0, 0, 0, 0, 0,
    0],
    [0, 0, 0, 0, 0, 0, 0, 0, 0, 0, 0, 0, 19, 60, 50, 14, 16, 19, 0, 0, 0, 0, 0, 0, 0, 0, 0, 0],
    [0, 0, 0, 0, 0, 0, 0, 0, 0, 0, 0, 0, 0, 0, 5, 6, 0, 0, 0, 0, 0, 0, 0, 0, 0, 0, 0, 0],
    [0, 0, 0, 0, 0, 0, 0, 0, 0, 0, 0, 0, 0, 0, 0, 0, 0, 0, 0, 0, 0, 0, 0, 0, 0, 0, 0, 0],
    [0, 0, 0, 0, 0, 0, 0, 0, 0, 0, 0, 0, 0, 0, 0, 0, 0, 0, 0, 0, 0, 0, 0, 0, 0, 0, 0, 0]]

/-- The second channel of `get_smooth_puffer` (yuca/patterns.py:242-328). -/
def smoothPuffer1 : List (List Nat) := [
    [0, 0, 0, 0, 0, 0, 0, 0, 0, 0, 0, 0, 0, 0, 0, 0, 0, 0, 0, 0, 0, 0, 0, 0, 0, 0, 0, 0],
    [0, 0, 0, 0, 0, 0, 0, 0, 0, 0, 0, 0, 0, 0, 0, 0, 0, 0, 0, 0, 0, 0, 0, 0, 0, 0, 0, 0],
    [0, 0, 0, 0, 0, 0, 0, 0, 0, 0, 0, 0, 0, 0, 0, 0, 0, 0, 0, 0, 0, 0, 0, 0, 0, 0, 0, 0],
    [0, 0, 0, 0, 0, 0, 0, 0, 0, 0, 0, 0, 0, 0, 0, 0, 0, 0, 0, 0, 0, 0, 0, 0, 0, 0, 0, 0],
    [0, 0, 0, 0, 0, 0, 0, 0, 0, 0, 0, 0, 0, 0, 0, 0, 0, 0, 0, 0, 0, 0, 0, 0, 0, 0, 0, 0],
    [0, 0, 0, 0, 0, 0, 0, 0, 0, 0, 0, 0, 0, 0, 0, 0, 0, 0, 0, 0, 0, 0, 0, 0, 0, 0, 0, 0],
    [0, 0, 0, 0, 0, 0, 0, 0, 0, 0, 0, 8, 21, 0, 0, 0, 0, 0, 0, 0, 0, 0, 0, 0, 0, 0, 0, 0],
    [0, 0, 0, 0, 0, 0, 0, 0, 0, 0, 0, 0, 81, 98, 85, 67, 45, 69, 0, 0, 0, 0, 0, 0, 0, 0, 0, 0],
    [0, 0, 0, 0, 0, 0, 0, 0, 35, 0, 0, 0, 0, 64, 100, 100, 100, 100, 100, 0, 0, 0, 0, 0, 0, 0, 0,
    0],
    [0, 0, 0, 0, 0, 0, 0, 6, 36, 0, 0, 0, 0, 28, 50, 46, 91, 100, 100, 82, 0, 0, 0, 0, 0, 0, 0,
    0],
    [0, 0, 0, 0, 0, 0, 0, 12, 13, 6, 5, 5, 3, 0, 36, 56, 60, 100, 100, 100, 62, 0, 0, 0, 0, 0, 0,
    0],
    [0, 0, 0, 0, 0, 0, 0, 0, 0, 18, 35, 35, 100, 7, 0, 47, 77, 100, 100, 100, 100, 14, 0, 0, 0,
    0, 0, 0],
    [0, 0, 0, 0, 0, 0, 0, 0, 0, 16, 38, 0, 0, 37, 29, 34, 90, 100, 100, 100, 100, 34, 0, 0, 0, 0,
    0, 0],
    [0, 0, 0, 0, 0, 5, 0, 0, 0, 11, 100, 0, 0, 0, 0, 50, 100, 100, 100, 100, 100, 43, 0, 0, 0, 0,
    0, 0],
    [0, 0, 0, 0, 0, 0, 86, 0, 0, 1, 19, 82, 0, 0, 0, 52, 100, 100, 100, 100, 97, 48, 0, 0, 0, 0,
    0, 0],
    [0, 0, 0, 0, 0, 0, 73, 73, 30, 32, 0, 21, 10, 0, 7, 98, 100, 100, 100, 100, 85, 50, 0, 0, 0,
    0, 0, 0],
    [0, 0, 0, 0, 0, 0, 30, 100, 26, 44, 57, 36, 49, 69, 100, 100, 100, 100, 100, 100, 86, 45, 0,
    0, 0, 0, 0, 0],
    [0, 0, 0, 0, 0, 0, 12, 95, 71, 26, 55, 78, 93, 100, 100, 100, 100, 100, 100, 100, 100, 27, 0,
    0, 0, 0, 0, 0],
    [0, 0, 0, 0, 0, 0, 0, 83, 100, 100, 100, 100, 100, 100, 100, 100, 100, 100, 100, 100, 93, 6,
    0, 0, 0, 0, 0, 0],
    [0, 0, 0, 0, 0, 0, 0, 38, 100, 100, 100, 100, 100, 100, 100, 100, 100, 100, 100, 100, 53, 0,
    0, 0, 0, 0, 0, 0],
    [0, 0, 0, 0, 0, 0, 0, 0, 4, 100, 100, 100, 100, 100, 100, 100, 100, 100, 100, 68, 5, 0, 0, 0,
    0, 0, 0, 0],
    [0, 0, 0, 0, 0, 0, 0, 0, 0, 0, 56, 85, 95, 97, 92, 82, 82, 69, 32, 2, 0, 0, 0, 0, 0, 0, 0, 0],
    [0, 0, 0, 0, 0, 0, 0, 0, 0, 0, 0, 0, 0, 3, 12, 11, 4, 0, 0, 0, 0, 0, 0, 0, 0, 0, 0, 0],
    [0, 0, 0, 0, 0, 0, 0, 0, 0, 0, 0, 0, 0, 0, 0, 0, 0, 0, 0, 0, 0, 0, 0, 0, 0, 0, 0, 0],
    [0, 0, 0, 0, 0, 0, 0, 0, 0, 0, 0, 0, 0, 0, 0, 0, 0, 0, 0, 0, 0, 0, 0, 0, 0, 0, 0, 0],
    [0, 0, 0, 0, 0, 0, 0, 0, 0, 0, 0, 0, 0, 0, 0, 0, 0, 0, 0, 0, 0, 0, 0, 0, 0, 0, 0, 0],
    [0, 0, 0, 0, 0, 0, 0, 0, 0, 0, 0, 0, 0, 0, 0, 0, 0, 0, 0, 0, 0, 0, 0, 0, 0, 0, 0, 0],
    [0, 0, 0, 0, 0, 0, 0, 0, 0, 0, 0, 0, 0, 0, 0, 0, 0, 0, 0, 0, 0, 0, 0, 0, 0, 0, 0, 0],
    [0, 0, 0, 0, 0, 0, 0, 0, 0, 0, 0, 0, 0, 0, 0, 0, 0, 0, 0, 0, 0, 0, 0, 0, 0, 0, 0, 0]]

/-- The third channel of `get_smooth_puffer` (yuca/patterns.py:242-328). -/
def smoothPuffer2 : List (List Nat) := [
    [0, 0, 0, 0, 0, 0, 1, 2, 3, 4, 6, 8, 9, 10, 10, 10, 10, 8, 5, 3, 2, 1, 0, 0, 0, 0, 0, 0],
    [0, 0, 0, 0, 1, 1, 3, 5, 8, 11, 13, 15, 17, 18, 20, 22, 21, 19, 15, 10, 6, 4, 2, 1, 0, 0, 0,
    0],
    [0, 0, 0, 1, 2, 4, 8, 12, 17, 20, 22, 24, 26, 28, 30, 33, 33, 31, 26, 20, 14, 9, 6, 3, 1, 0,
    0, 0],
    [0, 0, 1, 3, 5, 9, 15, 22, 28, 31, 32, 32, 33, 34, 37, 40, 42, 41, 36, 30, 23, 17, 11, 7, 3,
    1, 0, 0],
    [0, 1, 3, 6, 10, 16, 24, 31, 37, 40, 39, 37, 36, 37, 39, 42, 44, 44, 42, 38, 33, 26, 19, 13,
    7, 3, 1, 0],
    [1, 2, 5, 10, 16, 23, 30, 38, 42, 43, 43, 41, 39, 39, 40, 42, 43, 43, 42, 41, 40, 35, 28, 20,
    12, 6, 2, 0],
    [1, 4, 9, 15, 23, 29, 34, 39, 42, 43, 44, 45, 45, 45, 45, 45, 44, 43, 42, 43, 43, 42, 37, 29,
    19, 10, 4, 1],
    [3, 7, 13, 21, 28, 32, 35, 39, 42, 45, 48, 51, 53, 54, 53, 52, 50, 48, 46, 45, 46, 47, 45,
    37, 26, 15, 7, 3],
    [4, 10, 19, 27, 33, 35, 36, 39, 44, 50, 57, 62, 64, 65, 63, 61, 59, 56, 54, 52, 51, 52, 52,
    45, 34, 21, 11, 5],
    [6, 14, 25, 34, 39, 39, 39, 42, 48, 56, 65, 71, 74, 74, 72, 69, 66, 63, 60, 58, 56, 56, 56,
    51, 41, 27, 15, 7],
    [9, 19, 30, 39, 42, 43, 44, 48, 55, 64, 69, 73, 75, 77, 77, 76, 73, 69, 66, 63, 60, 58, 58,
    55, 46, 32, 19, 9],
    [11, 21, 33, 41, 43, 44, 48, 55, 63, 69, 69, 66, 66, 69, 73, 76, 76, 73, 71, 67, 63, 59, 58,
    56, 49, 36, 22, 11],
    [13, 22, 33, 40, 43, 45, 50, 60, 69, 72, 66, 59, 56, 58, 64, 70, 73, 73, 71, 68, 64, 59, 57,
    56, 51, 40, 25, 13],
    [14, 23, 32, 37, 41, 45, 52, 63, 73, 74, 67, 57, 52, 52, 57, 65, 71, 72, 71, 68, 63, 59, 56,
    56, 53, 43, 27, 14],
    [14, 24, 31, 35, 38, 43, 51, 62, 73, 77, 71, 60, 54, 53, 57, 65, 71, 73, 72, 68, 64, 59, 57,
    57, 55, 44, 28, 15],
    [15, 24, 32, 35, 37, 41, 50, 60, 70, 77, 76, 67, 60, 58, 62, 69, 75, 76, 74, 70, 65, 60, 58,
    58, 55, 45, 28, 14],
    [15, 25, 33, 37, 38, 41, 48, 57, 66, 74, 77, 73, 68, 66, 70, 75, 77, 77, 76, 72, 66, 61, 59,
    59, 55, 43, 26, 13],
    [15, 26, 35, 40, 41, 41, 46, 54, 62, 69, 74, 74, 72, 72, 75, 77, 77, 76, 75, 72, 66, 61, 59,
    59, 53, 39, 23, 11],
    [13, 25, 36, 42, 43, 42, 45, 51, 58, 65, 70, 72, 72, 72, 75, 77, 76, 74, 73, 70, 64, 60, 59,
    56, 48, 34, 19, 9],
    [11, 22, 33, 41, 43, 42, 43, 48, 55, 61, 67, 69, 69, 70, 72, 74, 74, 73, 70, 66, 61, 58, 57,
    52, 42, 28, 15, 6],
    [7, 17, 28, 36, 40, 41, 42, 46, 52, 58, 63, 66, 66, 66, 67, 69, 70, 69, 65, 61, 58, 56, 54,
    47, 35, 21, 11, 4],
    [4, 11, 20, 29, 36, 39, 42, 45, 51, 55, 60, 62, 62, 61, 62, 63, 64, 63, 61, 58, 56, 54, 48,
    39, 27, 15, 7, 2],
    [2, 7, 13, 21, 30, 36, 41, 46, 51, 55, 57, 59, 58, 57, 57, 58, 59, 59, 59, 57, 54, 49, 41,
    30, 19, 10, 4, 1],
    [1, 3, 8, 15, 23, 31, 38, 44, 51, 55, 57, 58, 56, 55, 55, 56, 57, 58, 57, 54, 48, 41, 31, 21,
    12, 5, 2, 0],
    [0, 2, 5, 9, 15, 23, 30, 38, 46, 52, 55, 56, 56, 55, 56, 56, 57, 56, 52, 46, 38, 29, 20, 12,
    6, 2, 0, 0],
    [0, 1, 2, 5, 9, 15, 21, 28, 36, 42, 46, 49, 50, 51, 52, 52, 50, 47, 41, 34, 26, 18, 11, 6, 2,
    1, 0, 0],
    [0, 0, 1, 2, 4, 8, 12, 17, 23, 28, 32, 35, 38, 39, 40, 39, 37, 32, 26, 20, 14, 9, 5, 2, 1, 0,
    0, 0],
    [0, 0, 0, 0, 1, 3, 6, 9, 12, 15, 18, 21, 23, 24, 25, 23, 21, 18, 14, 10, 6, 4, 2, 0, 0, 0, 0,
    0],
    [0, 0, 0, 0, 0, 1, 2, 3, 5, 7, 9, 11, 12, 12, 12, 11, 10, 8, 6, 4, 2, 1, 0, 0, 0, 0, 0, 0]]

/-- `get_pacman` (yuca/patterns.py:34-154). -/
def pacmanTable : List (List (List Nat)) := [pacman0, pacman1, pacman2]

/-- `get_smooth_puffer` (yuca/patterns.py:240-330). -/
def smoothPufferTable : List (List (List Nat)) := [smoothPuffer0, smoothPuffer1, smoothPuffer2]

end Yuca
