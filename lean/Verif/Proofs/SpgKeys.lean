/-
Certificates for the lookups in the table of space groups: for each name, and for each Hall symbol, the rows that
carry it.  Nothing here is trusted: `Verif/Proofs/SpgDb.lean` checks that the trees cover the whole table.  (Generated.)
-/
namespace Brille.Spg

/-- a search tree from numbers to lists -/
inductive Tree (α : Type) where
  | leaf
  | node (key : Nat) (val : List α) (l r : Tree α)

/-- the list at a number -/
def Tree.find {α : Type} (k : Nat) : Tree α → List α
  | .leaf => []
  | .node key val l r => bif Nat.beq k key then val else bif Nat.blt k key then l.find k else r.find k

/-- what holds of every list in the tree -/
def Tree.all {α : Type} (p : List α → Bool) : Tree α → Bool
  | .leaf => true
  | .node _ val l r => p val && (l.all p && r.all p)

def names1 : Tree (Nat × Nat × Nat) := .node 22028339 [(430, 143, 1)] (.node 86070 [(462, 168, 1)] (.node 86065 [(1, 1, 1)] (.node 82797 [(30, 8, 90673), (31, 8, 90674), (32, 8, 90675), (33, 8, 90929), (34, 8, 90930), (35, 8, 90931), (36, 8, 90417), (37, 8, 90418), (38, 8, 90419)] (.node 82787 [(39, 9, 90673), (40, 9, 90674), (41, 9, 90675), (42, 9, 19751473), (43, 9, 19751474), (44, 9, 19751475), (45, 9, 90929), (46, 9, 90930), (47, 9, 90931), (48, 9, 19751729), (49, 9, 19751730), (50, 9, 19751731), (51, 9, 90417), (52, 9, 90418), (53, 9, 90419), (54, 9, 19751217), (55, 9, 19751218), (56, 9, 19751219)] (.node 82738 [(9, 5, 90673), (10, 5, 90674), (11, 5, 90675), (12, 5, 90929), (13, 5, 90930), (14, 5, 90931), (15, 5, 90417), (16, 5, 90418), (17, 5, 90419)] .leaf .leaf) .leaf) (.node 84276 [(353, 79, 1)] .leaf .leaf)) (.node 86067 [(430, 143, 1)] (.node 86066 [(3, 3, 354), (4, 3, 355), (5, 3, 353)] .leaf .leaf) (.node 86068 [(349, 75, 1)] .leaf .leaf))) (.node 21569588 [(353, 79, 1)] (.node 86579 [(433, 146, 328), (434, 146, 338)] (.node 86125 [(18, 6, 354), (19, 6, 355), (20, 6, 353)] (.node 86115 [(21, 7, 90673), (22, 7, 90674), (23, 7, 90675), (24, 7, 90929), (25, 7, 90930), (26, 7, 90931), (27, 7, 90417), (28, 7, 90418), (29, 7, 90419)] .leaf .leaf) .leaf) (.node 21377587 [(490, 196, 1)] .leaf .leaf)) (.node 21574195 [(491, 197, 1)] (.node 21572916 [(356, 82, 1)] .leaf .leaf) (.node 22028337 [(1, 1, 1)] .leaf .leaf)))) (.node 22162739 [(436, 148, 328), (437, 148, 338)] (.node 22031668 [(355, 81, 1)] (.node 22031665 [(2, 2, 1)] (.node 22028342 [(462, 168, 1)] (.node 22028340 [(349, 75, 1)] .leaf .leaf) .leaf) (.node 22031667 [(435, 147, 1)] .leaf .leaf)) (.node 22032947 [(489, 195, 1)] (.node 22031670 [(468, 174, 1)] .leaf .leaf) (.node 22159411 [(433, 146, 328), (434, 146, 338)] .leaf .leaf))) (.node 5388788065 [(183, 37, 23290210)] (.node 22164333 [(450, 160, 328), (451, 160, 338)] (.node 22164323 [(452, 161, 328), (453, 161, 338)] (.node 22164274 [(444, 155, 328), (445, 155, 338)] .leaf .leaf) .leaf) (.node 5388775986 [(120, 21, 23290210)] .leaf .leaf)) (.node 5392118369 [(208, 41, 5925331810)] (.node 5388791149 [(174, 35, 23290210)] .leaf .leaf) (.node 5392118381 [(196, 39, 5925331810)] .leaf .leaf))))

def names2 : Tree (Nat × Nat × Nat) := .node 5405568365 [(187, 38, 23290210)] (.node 5392654689 [(314, 66, 23290210)] (.node 5392133485 [(318, 67, 23290210), (319, 67, 5056455265)] (.node 5392133426 [(191, 39, 1)] (.node 5392130413 [(307, 64, 5056455265)] (.node 5392130401 [(326, 68, 5123563874), (327, 68, 5140341090), (328, 68, 1310726513249), (329, 68, 1315021480545)] .leaf .leaf) .leaf) (.node 5392133473 [(306, 64, 23290210)] .leaf .leaf)) (.node 5392642669 [(190, 38, 5925331810)] (.node 5392642657 [(202, 40, 5925331810)] .leaf .leaf) (.node 5392654642 [(197, 40, 1)] .leaf .leaf))) (.node 5405553202 [(121, 21, 23225185)] (.node 5392657761 [(300, 63, 23290210)] (.node 5392657714 [(185, 38, 1)] (.node 5392654701 [(301, 63, 5056455265)] .leaf .leaf) .leaf) (.node 5392657773 [(311, 65, 23290210)] .leaf .leaf)) (.node 5405566317 [(193, 39, 23290210)] (.node 5405566306 [(205, 41, 23290210)] .leaf .leaf) (.node 5405568354 [(199, 40, 23290210)] .leaf .leaf)))) (.node 5409419885 [(175, 35, 23225185)] (.node 5408712045 [(308, 64, 23225185)] (.node 5408711986 [(204, 41, 5945503075)] (.node 5408711522 [(331, 68, 5140276065)] (.node 5408698978 [(184, 37, 23225185)] .leaf .leaf) .leaf) (.node 5408712034 [(330, 68, 5123498849), (332, 68, 1311595389794), (333, 68, 1315890357090)] .leaf .leaf)) (.node 5408714082 [(315, 66, 23225185)] (.node 5408714034 [(198, 40, 5945503075)] .leaf .leaf) (.node 5408714093 [(302, 63, 23225185)] .leaf .leaf))) (.node 5409434930 [(186, 38, 5945503075)] (.node 5409432930 [(309, 64, 5925331810)] (.node 5409432882 [(192, 39, 5945503075)] .leaf .leaf) (.node 5409432941 [(320, 67, 23225185), (321, 67, 5925331810)] .leaf .leaf)) (.node 5409434989 [(312, 65, 23225185)] (.node 5409434978 [(303, 63, 5925331810)] .leaf .leaf) (.node 5422329699 [(90, 15, 90673), (91, 15, 90674), (92, 15, 90675), (93, 15, 19751473), (94, 15, 19751474), (95, 15, 19751475), (96, 15, 90929), (97, 15, 90930), (98, 15, 90931), (99, 15, 19751729), (100, 15, 19751730), (101, 15, 19751731), (102, 15, 90417), (103, 15, 90418), (104, 15, 90419), (105, 15, 19751217), (106, 15, 19751218), (107, 15, 19751219)] .leaf .leaf))))

def names3 : Tree (Nat × Nat × Nat) := .node 5426212197 [(316, 67, 1), (317, 67, 5945503075)] (.node 5425554277 [(322, 68, 305), (323, 68, 306), (324, 68, 1311615561059), (325, 68, 1315910528355)] (.node 5422345581 [(188, 38, 5056455265)] (.node 5422343021 [(200, 40, 5056455265)] (.node 5422343013 [(206, 41, 5056455265)] (.node 5422330418 [(119, 21, 1)] .leaf .leaf) .leaf) (.node 5422345573 [(194, 39, 5056455265)] .leaf .leaf)) (.node 5425541741 [(201, 40, 23225185)] (.node 5425541733 [(207, 41, 23225185)] .leaf .leaf) (.node 5425554226 [(182, 37, 1)] .leaf .leaf))) (.node 5426197101 [(189, 38, 23225185)] (.node 5425556845 [(299, 63, 5945503075)] (.node 5425556837 [(305, 64, 5945503075)] (.node 5425554285 [(313, 66, 1)] .leaf .leaf) .leaf) (.node 5426197093 [(195, 39, 23225185)] .leaf .leaf)) (.node 5426209645 [(298, 63, 1)] (.node 5426209637 [(304, 64, 1)] .leaf .leaf) (.node 5426212146 [(173, 35, 1)] .leaf .leaf)))) (.node 5475951716 [(335, 70, 305), (336, 70, 306)] (.node 5472793394 [(505, 209, 1)] (.node 5472674916 [(213, 43, 23290210)] (.node 5472662066 [(122, 22, 1)] (.node 5426212205 [(310, 65, 1)] .leaf .leaf) .leaf) (.node 5472677229 [(210, 42, 23290210)] .leaf .leaf)) (.node 5475938916 [(214, 43, 23225185)] (.node 5475937587 [(498, 203, 305), (499, 203, 306)] .leaf .leaf) (.node 5475951666 [(212, 43, 1)] .leaf .leaf))) (.node 5521812788 [(356, 82, 1)] (.node 5476543794 [(209, 42, 1)] (.node 5476528749 [(211, 42, 23225185)] (.node 5476527411 [(497, 202, 1)] .leaf .leaf) .leaf) (.node 5476543853 [(334, 69, 1)] .leaf .leaf)) (.node 5523006306 [(219, 45, 23290210)] (.node 5522993714 [(123, 23, 1)] .leaf .leaf) (.node 5523006317 [(224, 46, 5056455265)] .leaf .leaf))))

def names4 : Tree (Nat × Nat × Nat) := .node 5526220141 [(346, 74, 5056455265)] (.node 5526151474 [(218, 45, 1)] (.node 5523136305 [(354, 80, 1)] (.node 5523124786 [(374, 97, 1)] (.node 5523124077 [(363, 87, 1)] (.node 5523008877 [(216, 44, 23290210)] .leaf .leaf) .leaf) (.node 5523125042 [(507, 211, 1)] .leaf .leaf)) (.node 5523139949 [(384, 107, 1)] (.node 5523137389 [(385, 108, 1)] .leaf .leaf) (.node 5526072627 [(502, 206, 1)] .leaf .leaf))) (.node 5526205025 [(220, 45, 23225185)] (.node 5526154546 [(222, 46, 5945503075)] (.node 5526152033 [(341, 73, 1)] (.node 5526151533 [(338, 72, 1)] .leaf .leaf) .leaf) (.node 5526154605 [(345, 74, 23290210)] .leaf .leaf)) (.node 5526217058 [(342, 73, 5945503075)] (.node 5526205037 [(225, 46, 23225185)] .leaf .leaf) (.node 5526220129 [(340, 72, 23225185)] .leaf .leaf)))) (.node 5526875489 [(343, 74, 1)] (.node 5526872429 [(348, 74, 5925331810)] (.node 5526860397 [(217, 44, 23225185)] (.node 5526860385 [(226, 46, 5925331810)] (.node 5526859059 [(500, 204, 1)] .leaf .leaf) .leaf) (.node 5526872370 [(221, 46, 1)] .leaf .leaf)) (.node 5526872941 [(347, 74, 23225185)] (.node 5526872930 [(339, 72, 23290210)] .leaf .leaf) (.node 5526875442 [(215, 44, 1)] .leaf .leaf))) (.node 5639253299 [(435, 147, 1)] (.node 5526875501 [(337, 71, 1)] (.node 5526875490 [(344, 74, 5945503075)] .leaf .leaf) (.node 5639253297 [(2, 2, 1)] .leaf .leaf)) (.node 5639253302 [(468, 174, 1)] (.node 5639253300 [(355, 81, 1)] .leaf .leaf) (.node 5640433507 [(72, 13, 90673), (73, 13, 90674), (74, 13, 90675), (75, 13, 90929), (76, 13, 90930), (77, 13, 90931), (78, 13, 90417), (79, 13, 90418), (80, 13, 90419)] .leaf .leaf))))

def names5 : Tree (Nat × Nat × Nat) := .node 5640514865 [(446, 156, 1)] (.node 5640449633 [(151, 30, 23290210)] (.node 5640446818 [(162, 32, 23290210)] (.node 5640446305 [(135, 27, 23290210)] (.node 5640445745 [(6, 4, 354), (7, 4, 355), (8, 4, 353)] (.node 5640434226 [(108, 16, 1)] .leaf .leaf) .leaf) (.node 5640446318 [(152, 30, 5056455265)] .leaf .leaf)) (.node 5640449378 [(139, 28, 23290210)] (.node 5640446829 [(140, 28, 5056455265)] .leaf .leaf) (.node 5640449389 [(126, 25, 23290210)] .leaf .leaf))) (.node 5640499761 [(439, 150, 1)] (.node 5640499555 [(449, 159, 1)] (.node 5640499506 [(438, 149, 1)] (.node 5640449646 [(171, 34, 23290210)] .leaf .leaf) .leaf) (.node 5640499565 [(447, 157, 1)] .leaf .leaf)) (.node 5640511282 [(432, 145, 1)] (.node 5640511281 [(431, 144, 1)] .leaf .leaf) (.node 5640512305 [(448, 158, 1)] .leaf .leaf)))) (.node 5640577891 [(380, 103, 1)] (.node 5640576817 [(350, 76, 1)] (.node 5640565298 [(366, 89, 1)] (.node 5640564590 [(359, 85, 305), (360, 85, 306)] (.node 5640564589 [(357, 83, 1)] .leaf .leaf) .leaf) (.node 5640565554 [(503, 207, 1)] .leaf .leaf)) (.node 5640576819 [(352, 78, 1)] (.node 5640576818 [(351, 77, 1)] .leaf .leaf) (.node 5640577645 [(377, 100, 1)] .leaf .leaf))) (.node 5640707889 [(463, 169, 1)] (.node 5640695661 [(469, 175, 1)] (.node 5640580707 [(381, 104, 1)] (.node 5640580461 [(376, 99, 1)] .leaf .leaf) .leaf) (.node 5640696370 [(471, 177, 1)] .leaf .leaf)) (.node 5640707891 [(467, 173, 1)] (.node 5640707890 [(465, 171, 1)] .leaf .leaf) (.node 5640707892 [(466, 172, 1)] .leaf .leaf))))

def names6 : Tree (Nat × Nat × Nat) := .node 5643595117 [(241, 51, 23290210)] (.node 5643592045 [(263, 55, 1)] (.node 5643580014 [(153, 30, 23225185)] (.node 5643513139 [(501, 205, 1)] (.node 5640711533 [(477, 183, 1)] (.node 5640708963 [(478, 184, 1)] .leaf .leaf) .leaf) (.node 5643580002 [(136, 27, 23225185)] .leaf .leaf)) (.node 5643592033 [(259, 54, 23290210)] (.node 5643591986 [(161, 32, 1)] .leaf .leaf) (.node 5643592034 [(262, 54, 5925331810)] .leaf .leaf))) (.node 5643592558 [(284, 60, 1)] (.node 5643592546 [(261, 54, 23225185)] (.node 5643592545 [(290, 61, 1)] (.node 5643592046 [(233, 50, 305), (234, 50, 306)] .leaf .leaf) .leaf) (.node 5643592557 [(269, 57, 1)] .leaf .leaf)) (.node 5643595105 [(273, 57, 23225185)] (.node 5643595058 [(138, 28, 5945503075)] .leaf .leaf) (.node 5643595106 [(232, 49, 23225185)] .leaf .leaf)))) (.node 5643657570 [(291, 61, 5945503075)] (.node 5643595374 [(247, 52, 23290210)] (.node 5643595362 [(268, 56, 23225185)] (.node 5643595361 [(288, 60, 23225185)] (.node 5643595118 [(253, 53, 23290210)] .leaf .leaf) .leaf) (.node 5643595373 [(294, 62, 23290210)] .leaf .leaf)) (.node 5643645549 [(141, 28, 23225185)] (.node 5643645537 [(163, 32, 23225185)] .leaf .leaf) (.node 5643657569 [(260, 54, 5056455265)] .leaf .leaf))) (.node 5643658081 [(257, 54, 1)] (.node 5643657582 [(285, 60, 5945503075)] (.node 5643657581 [(270, 57, 5945503075)] .leaf .leaf) (.node 5643658034 [(134, 27, 1)] .leaf .leaf)) (.node 5643658093 [(230, 49, 1)] (.node 5643658082 [(258, 54, 5945503075)] .leaf .leaf) (.node 5643658094 [(266, 56, 1)] .leaf .leaf))))

def names7 : Tree (Nat × Nat × Nat) := .node 5644313442 [(264, 55, 23290210)] (.node 5644299571 [(494, 200, 1)] (.node 5643660897 [(237, 50, 5123498849), (238, 50, 5140276065)] (.node 5643660654 [(295, 62, 5056455265)] (.node 5643660653 [(242, 51, 5056455265)] (.node 5643660642 [(274, 57, 5925331810)] .leaf .leaf) .leaf) (.node 5643660850 [(150, 30, 5945503075)] .leaf .leaf)) (.node 5643660909 [(254, 53, 5056455265)] (.node 5643660898 [(289, 60, 5925331810)] .leaf .leaf) (.node 5643660910 [(248, 52, 5056455265)] .leaf .leaf))) (.node 5644312930 [(272, 57, 5056455265)] (.node 5644312882 [(137, 28, 1)] (.node 5644300909 [(127, 25, 23225185)] (.node 5644300897 [(142, 28, 5925331810)] .leaf .leaf) .leaf) (.node 5644312929 [(231, 49, 23290210)] .leaf .leaf)) (.node 5644312942 [(256, 53, 5925331810)] (.node 5644312941 [(244, 51, 5925331810)] .leaf .leaf) (.node 5644313441 [(271, 57, 23290210)] .leaf .leaf)))) (.node 5644316258 [(293, 62, 5945503075)] (.node 5644316002 [(240, 51, 5945503075)] (.node 5644315954 [(125, 25, 1)] (.node 5644313454 [(296, 62, 23225185)] (.node 5644313453 [(243, 51, 23225185)] .leaf .leaf) .leaf) (.node 5644316001 [(239, 51, 1)] .leaf .leaf)) (.node 5644316014 [(278, 59, 305), (279, 59, 306)] (.node 5644316013 [(227, 47, 1)] .leaf .leaf) (.node 5644316257 [(251, 53, 1)] .leaf .leaf))) (.node 5644366446 [(172, 34, 23225185)] (.node 5644365107 [(495, 201, 305), (496, 201, 306)] (.node 5644316270 [(276, 58, 23290210)] (.node 5644316269 [(282, 59, 5123498849), (283, 59, 5140276065)] .leaf .leaf) .leaf) (.node 5644366434 [(154, 30, 5925331810)] .leaf .leaf)) (.node 5644378466 [(287, 60, 5056455265)] (.node 5644378465 [(267, 56, 23290210)] .leaf .leaf) (.node 5644378477 [(297, 62, 5925331810)] .leaf .leaf))))

def names8 : Tree (Nat × Nat × Nat) := .node 1400699494451 [(490, 196, 1)] (.node 5644381550 [(277, 58, 23225185)] (.node 5644378990 [(249, 52, 23225185)] (.node 5644378978 [(235, 50, 5123563874), (236, 50, 5140341090)] (.node 5644378977 [(286, 60, 23290210)] (.node 5644378930 [(149, 30, 1)] .leaf .leaf) .leaf) (.node 5644378989 [(255, 53, 23225185)] .leaf .leaf)) (.node 5644381538 [(252, 53, 5945503075)] (.node 5644381537 [(292, 62, 1)] .leaf .leaf) (.node 5644381549 [(280, 59, 5123563874), (281, 59, 5140341090)] .leaf .leaf))) (.node 5644381806 [(228, 48, 305), (229, 48, 306)] (.node 5644381794 [(246, 52, 5945503075)] (.node 5644381793 [(245, 52, 1)] (.node 5644381746 [(170, 34, 1)] .leaf .leaf) .leaf) (.node 5644381805 [(275, 58, 1)] .leaf .leaf)) (.node 5673661283 [(460, 167, 328), (461, 167, 338)] (.node 5672807731 [(436, 148, 328), (437, 148, 338)] .leaf .leaf) (.node 5673661293 [(458, 166, 328), (459, 166, 338)] .leaf .leaf)))) (.node 1413584543537 [(354, 80, 1)] (.node 1401991017315 [(524, 226, 1)] (.node 1401840022371 [(527, 228, 305), (528, 228, 306)] (.node 1400917734253 [(512, 216, 1)] (.node 1400917734243 [(515, 219, 1)] .leaf .leaf) .leaf) (.node 1401840022381 [(525, 227, 305), (526, 227, 306)] .leaf .leaf)) (.node 1413584396339 [(491, 197, 1)] (.node 1401991017325 [(523, 225, 1)] .leaf .leaf) (.node 1413584531309 [(363, 87, 1)] .leaf .leaf))) (.node 1413802636141 [(513, 217, 1)] (.node 1413802635885 [(398, 121, 1)] (.node 1413802635876 [(399, 122, 1)] .leaf .leaf) (.node 1413802636132 [(516, 220, 1)] .leaf .leaf)) (.node 1413802650930 [(396, 119, 1)] (.node 1413802648370 [(397, 120, 1)] .leaf .leaf) (.node 1413889339699 [(493, 199, 1)] .leaf .leaf))))

def names9 : Tree (Nat × Nat × Nat) := .node 1443867353905 [(457, 165, 1)] (.node 1443649314611 [(352, 78, 1)] (.node 1443649302381 [(357, 83, 1)] (.node 1443649249073 [(431, 144, 1)] (.node 1443649167411 [(489, 195, 1)] (.node 1414875919213 [(529, 229, 1)] .leaf .leaf) .leaf) (.node 1443649249074 [(432, 145, 1)] .leaf .leaf)) (.node 1443649314609 [(350, 76, 1)] (.node 1443649302382 [(359, 85, 305), (360, 85, 306)] .leaf .leaf) (.node 1443649314610 [(351, 77, 1)] .leaf .leaf))) (.node 1443649445684 [(466, 172, 1)] (.node 1443649445682 [(465, 171, 1)] (.node 1443649445681 [(463, 169, 1)] (.node 1443649433453 [(469, 175, 1)] .leaf .leaf) .leaf) (.node 1443649445683 [(467, 173, 1)] .leaf .leaf)) (.node 1443867341155 [(455, 163, 1)] (.node 1443649445685 [(464, 170, 1)] .leaf .leaf) (.node 1443867341165 [(454, 162, 1)] .leaf .leaf)))) (.node 1443867422258 [(395, 118, 1)] (.node 1443867407214 [(514, 218, 1)] (.node 1443867406957 [(388, 111, 1)] (.node 1443867406947 [(389, 112, 1)] (.node 1443867356465 [(456, 164, 1)] .leaf .leaf) .leaf) (.node 1443867407213 [(511, 215, 1)] .leaf .leaf)) (.node 1443867419442 [(393, 116, 1)] (.node 1443867419186 [(394, 117, 1)] .leaf .leaf) (.node 1443867422002 [(392, 115, 1)] .leaf .leaf))) (.node 1443954110771 [(492, 198, 1)] (.node 1443867550514 [(482, 188, 1)] (.node 1443867538029 [(483, 189, 1)] (.node 1443867538019 [(484, 190, 1)] .leaf .leaf) .leaf) (.node 1443867553074 [(481, 187, 1)] .leaf .leaf)) (.node 1444940690286 [(520, 223, 1)] (.node 1444940690285 [(517, 221, 1)] .leaf .leaf) (.node 1444957467501 [(521, 224, 305), (522, 224, 306)] .leaf .leaf))))

def names10 : Tree (Nat × Nat × Nat) := .node 361963459535725 [(425, 140, 1)] (.node 354511740678498 [(181, 36, 5925331810)] (.node 353159577952621 [(179, 36, 5056455265)] (.node 1452239167597 [(450, 160, 328), (451, 160, 338)] (.node 1452239167587 [(452, 161, 328), (453, 161, 338)] (.node 1452239167538 [(444, 155, 328), (445, 155, 338)] .leaf .leaf) .leaf) (.node 353159577940530 [(117, 20, 23290210)] .leaf .leaf)) (.node 354258337607986 [(118, 20, 23225185)] (.node 353159577955681 [(178, 36, 23290210)] .leaf .leaf) (.node 354464496038253 [(180, 36, 23225185)] .leaf .leaf))) (.node 358580060433715 [(497, 202, 1)] (.node 355612071452465 [(176, 36, 1)] (.node 355569289551665 [(177, 36, 5945503075)] (.node 355357846298417 [(116, 20, 1)] .leaf .leaf) .leaf) (.node 358579909438771 [(498, 203, 305), (499, 203, 306)] .leaf .leaf)) (.node 361878393990451 [(502, 206, 1)] (.node 358665726014258 [(506, 210, 1)] .leaf .leaf) (.node 361878595317043 [(500, 204, 1)] .leaf .leaf)))) (.node 369575193488691 [(495, 201, 305), (496, 201, 306)] (.node 361964260909924 [(387, 110, 1)] (.node 361964260897330 [(375, 98, 1)] (.node 361964260896609 [(364, 88, 305), (365, 88, 306)] (.node 361963459538285 [(424, 139, 1)] .leaf .leaf) .leaf) (.node 361964260897586 [(510, 214, 1)] .leaf .leaf)) (.node 369574975384883 [(501, 205, 1)] (.node 361964260912484 [(386, 109, 1)] .leaf .leaf) (.node 369575176711475 [(494, 200, 1)] .leaf .leaf))) (.node 369652252356461 [(60, 11, 354), (61, 11, 355), (62, 11, 353)] (.node 369651500396850 [(111, 17, 23225185)] (.node 369651497459505 [(109, 17, 1)] .leaf .leaf) (.node 369652252356451 [(81, 14, 90673), (82, 14, 90674), (83, 14, 90675), (84, 14, 90929), (85, 14, 90930), (86, 14, 90931), (87, 14, 90417), (88, 14, 90418), (89, 14, 90419)] .leaf .leaf)) (.node 369652252369250 [(145, 29, 23290210)] (.node 369652252357170 [(110, 17, 23290210)] .leaf .leaf) (.node 369652252369261 [(131, 26, 5056455265)] .leaf .leaf))))

def names11 : Tree (Nat × Nat × Nat) := .node 369660090331442 [(367, 90, 1)] (.node 369656547390001 [(443, 154, 1)] (.node 369652252372589 [(158, 31, 5056455265)] (.node 369652252372334 [(157, 31, 23290210)] (.node 369652252372321 [(130, 26, 23290210)] (.node 369652252369774 [(167, 33, 5056455265)] .leaf .leaf) .leaf) (.node 369652252372578 [(166, 33, 23290210)] .leaf .leaf)) (.node 369656547324465 [(441, 152, 1)] (.node 369656547324210 [(440, 151, 1)] .leaf .leaf) (.node 369656547389746 [(442, 153, 1)] .leaf .leaf))) (.node 369660040995437 [(402, 125, 305), (403, 125, 306)] (.node 369660040932717 [(400, 123, 1)] (.node 369660040930147 [(401, 124, 1)] (.node 369660040929901 [(406, 127, 1)] .leaf .leaf) .leaf) (.node 369660040932963 [(407, 128, 1)] .leaf .leaf)) (.node 369660040998253 [(408, 129, 305), (409, 129, 306)] (.node 369660040995683 [(410, 130, 305), (411, 130, 306)] .leaf .leaf) (.node 369660040998499 [(404, 126, 305), (405, 126, 306)] .leaf .leaf)))) (.node 369660842372451 [(382, 105, 1)] (.node 369660842357298 [(370, 93, 1)] (.node 369660842356589 [(358, 84, 1)] (.node 369660842292018 [(509, 213, 1)] (.node 369660842291762 [(368, 91, 1)] .leaf .leaf) .leaf) (.node 369660842356590 [(361, 86, 305), (362, 86, 306)] .leaf .leaf)) (.node 369660842369635 [(383, 106, 1)] (.node 369660842357554 [(504, 208, 1)] .leaf .leaf) (.node 369660842369901 [(378, 101, 1)] .leaf .leaf))) (.node 369668630867309 [(485, 191, 1)] (.node 369660842423090 [(508, 212, 1)] (.node 369660842422834 [(372, 95, 1)] (.node 369660842372717 [(379, 102, 1)] .leaf .leaf) .leaf) (.node 369668630864739 [(486, 192, 1)] .leaf .leaf)) (.node 369669432291890 [(474, 180, 1)] (.node 369669432226354 [(472, 178, 1)] .leaf .leaf) (.node 369669432356717 [(470, 176, 1)] .leaf .leaf))))

def names12 : Tree (Nat × Nat × Nat) := .node 369909198434669 [(159, 31, 23225185)] (.node 369861953794402 [(147, 29, 23225185)] (.node 369857658827105 [(148, 29, 5925331810)] (.node 369669432422962 [(475, 181, 1)] (.node 369669432372579 [(480, 186, 1)] (.node 369669432370029 [(479, 185, 1)] .leaf .leaf) .leaf) (.node 369669432488498 [(473, 179, 1)] .leaf .leaf)) (.node 369858477973297 [(144, 29, 5945503075)] (.node 369857658827117 [(132, 26, 23225185)] .leaf .leaf) (.node 369858662522673 [(165, 33, 5945503075)] .leaf .leaf))) (.node 369904903467374 [(160, 31, 5925331810)] (.node 369862940712753 [(129, 26, 5945503075)] (.node 369862739386161 [(143, 29, 1)] (.node 369861953794414 [(168, 33, 23225185)] .leaf .leaf) .leaf) (.node 369904903467362 [(133, 26, 5925331810)] .leaf .leaf)) (.node 369905907162929 [(155, 31, 1)] (.node 369905722613553 [(128, 26, 1)] .leaf .leaf) (.node 369909198434657 [(169, 33, 5925331810)] .leaf .leaf)))) (.node 90388862889762865 [(10, 5, 90674)] (.node 90388862889697330 [(12, 5, 90929)] (.node 371773127467107 [(460, 167, 328), (461, 167, 338)] (.node 369910185353009 [(156, 31, 5945503075)] (.node 369909984026417 [(164, 33, 1)] .leaf .leaf) .leaf) (.node 371773127467117 [(458, 166, 328), (459, 166, 338)] .leaf .leaf)) (.node 90388862889697389 [(33, 8, 90929)] (.node 90388862889697377 [(45, 9, 90929)] .leaf .leaf) (.node 90388862889697390 [(49, 9, 19751730)] .leaf .leaf))) (.node 90388867184730162 [(120, 21, 23290210)] (.node 90388862893629489 [(31, 8, 90674)] (.node 90388862892843057 [(42, 9, 19751473)] .leaf .leaf) (.node 90388862893695025 [(40, 9, 90674)] .leaf .leaf)) (.node 90388867188596845 [(174, 35, 23290210)] (.node 90388867187810401 [(183, 37, 23290210)] .leaf .leaf) (.node 90389086228062305 [(208, 41, 5925331810)] .leaf .leaf))))

def names13 : Tree (Nat × Nat × Nat) := .node 90670337866408046 [(46, 9, 90930)] (.node 90389120590880818 [(197, 40, 1)] (.node 90389086231928929 [(306, 64, 23290210)] (.node 90389086231142509 [(307, 64, 5056455265)] (.node 90389086231142497 [(326, 68, 5123563874), (327, 68, 5140341090), (328, 68, 1310726513249), (329, 68, 1315021480545)] (.node 90389086231142450 [(203, 41, 1)] .leaf .leaf) .leaf) (.node 90389086231928882 [(191, 39, 1)] .leaf .leaf)) (.node 90389120587800673 [(202, 40, 5925331810)] (.node 90389086231928941 [(318, 67, 23290210), (319, 67, 5056455265)] .leaf .leaf) (.node 90389120587800685 [(190, 38, 5925331810)] .leaf .leaf))) (.node 90389120591667309 [(311, 65, 23290210)] (.node 90389120591667250 [(185, 38, 1)] (.node 90389120590880877 [(301, 63, 5056455265)] (.node 90389120590880865 [(314, 66, 23290210)] .leaf .leaf) .leaf) (.node 90389120591667297 [(300, 63, 23290210)] .leaf .leaf)) (.node 90670337866408034 [(48, 9, 19751729)] (.node 90670337866407986 [(13, 5, 90930)] .leaf .leaf) (.node 90670337866408045 [(34, 8, 90930)] .leaf .leaf)))) (.node 90670548323082338 [(331, 68, 5140276065)] (.node 90670342165307490 [(199, 40, 23290210)] (.node 90670342164783202 [(205, 41, 23290210)] (.node 90670342161440818 [(121, 21, 23225185)] (.node 90670342161375281 [(15, 5, 90417)] .leaf .leaf) .leaf) (.node 90670342164783213 [(193, 39, 23290210)] .leaf .leaf)) (.node 90670548319805489 [(51, 9, 90417)] (.node 90670342165307501 [(187, 38, 23290210)] .leaf .leaf) (.node 90670548319871074 [(184, 37, 23225185)] .leaf .leaf))) (.node 90670548323737698 [(315, 66, 23225185)] (.node 90670548323213421 [(308, 64, 23225185)] (.node 90670548323213410 [(330, 68, 5123498849), (332, 68, 1311595389794), (333, 68, 1315890357090)] (.node 90670548323213362 [(204, 41, 5945503075)] .leaf .leaf) .leaf) (.node 90670548323737650 [(198, 40, 5945503075)] .leaf .leaf)) (.node 90670595564445745 [(36, 8, 90417)] (.node 90670548323737709 [(302, 63, 23225185)] .leaf .leaf) (.node 90670595564511341 [(175, 35, 23225185)] .leaf .leaf))))

def names14 : Tree (Nat × Nat × Nat) := .node 90952027591549029 [(207, 41, 23225185)] (.node 90951812847050801 [(30, 8, 90673)] (.node 90670595568377965 [(312, 65, 23225185)] (.node 90670595568377906 [(186, 38, 5945503075)] (.node 90670595567853677 [(320, 67, 23225185), (321, 67, 5925331810)] (.node 90670595567853666 [(309, 64, 5925331810)] .leaf .leaf) .leaf) (.node 90670595568377954 [(303, 63, 5925331810)] .leaf .leaf)) (.node 90951812843184177 [(9, 5, 90673)] (.node 90670599859413041 [(55, 9, 19751218)] .leaf .leaf) (.node 90951812846395441 [(39, 9, 90673)] .leaf .leaf))) (.node 90951817141362797 [(200, 40, 5056455265)] (.node 90951817138151474 [(119, 21, 1)] (.node 90951817138085937 [(16, 5, 90418)] (.node 90951812847116337 [(43, 9, 19751474)] .leaf .leaf) .leaf) (.node 90951817141362789 [(206, 41, 5056455265)] .leaf .leaf)) (.node 90951817142018157 [(188, 38, 5056455265)] (.node 90951817142018149 [(194, 39, 5056455265)] .leaf .leaf) (.node 90952027591483441 [(54, 9, 19751217)] .leaf .leaf)))) (.node 90952070541221997 [(189, 38, 23225185)] (.node 90952027595415653 [(305, 64, 5945503075)] (.node 90952027594760293 [(322, 68, 305), (323, 68, 306), (324, 68, 1311615561059), (325, 68, 1315910528355)] (.node 90952027594760242 [(182, 37, 1)] (.node 90952027591549037 [(201, 40, 23225185)] .leaf .leaf) .leaf) (.node 90952027594760301 [(313, 66, 1)] .leaf .leaf)) (.node 90952070541156401 [(37, 8, 90418)] (.node 90952027595415661 [(299, 63, 5945503075)] .leaf .leaf) (.node 90952070541221989 [(195, 39, 23225185)] .leaf .leaf))) (.node 90952070545088613 [(316, 67, 1), (317, 67, 5945503075)] (.node 90952070544433261 [(298, 63, 1)] (.node 90952070544433253 [(304, 64, 1)] .leaf .leaf) (.node 90952070545088562 [(173, 35, 1)] .leaf .leaf)) (.node 90952074836123697 [(52, 9, 90418)] (.node 90952070545088621 [(310, 65, 1)] .leaf .leaf) (.node 91796242068283442 [(122, 22, 1)] .leaf .leaf))))

def names15 : Tree (Nat × Nat × Nat) := .node 92640666998415410 [(123, 23, 1)] (.node 92640662703382578 [(14, 5, 90931)] (.node 91796456819925092 [(335, 70, 305), (336, 70, 306)] (.node 91796456816648292 [(214, 43, 23225185)] (.node 91796250658283570 [(505, 209, 1)] (.node 91796242072150125 [(210, 42, 23290210)] .leaf .leaf) .leaf) (.node 91796456819925042 [(212, 43, 1)] .leaf .leaf)) (.node 91796495475220530 [(209, 42, 1)] (.node 91796495471353965 [(211, 42, 23225185)] .leaf .leaf) (.node 91796495475220589 [(334, 69, 1)] .leaf .leaf))) (.node 92640662706528305 [(41, 9, 90675)] (.node 92640662703382637 [(35, 8, 90931)] (.node 92640662703382626 [(47, 9, 90931)] (.node 92640662703382625 [(50, 9, 19751731)] .leaf .leaf) .leaf) (.node 92640662703448113 [(11, 5, 90675)] .leaf .leaf)) (.node 92640662707314737 [(32, 8, 90675)] (.node 92640662706659377 [(44, 9, 19751475)] .leaf .leaf) (.node 92640666998349873 [(17, 5, 90419)] .leaf .leaf)))) (.node 92640675592216685 [(384, 107, 1)] (.node 92640668055314483 [(493, 199, 1)] (.node 92640667002282082 [(223, 46, 23290210)] (.node 92640667001626733 [(224, 46, 5056455265)] (.node 92640667001626722 [(219, 45, 23290210)] .leaf .leaf) .leaf) (.node 92640667002282093 [(216, 44, 23290210)] .leaf .leaf)) (.node 92640675588415538 [(507, 211, 1)] (.node 92640675588350002 [(374, 97, 1)] .leaf .leaf) (.node 92640675591561325 [(385, 108, 1)] .leaf .leaf))) (.node 92640873159925869 [(338, 72, 1)] (.node 92640873156780081 [(56, 9, 19751219)] (.node 92640676645252961 [(364, 88, 305), (365, 88, 306)] .leaf .leaf) (.node 92640873159925810 [(218, 45, 1)] .leaf .leaf)) (.node 92640873160712242 [(222, 46, 5945503075)] (.node 92640873160056929 [(341, 73, 1)] .leaf .leaf) (.node 92640873160712301 [(345, 74, 23290210)] .leaf .leaf))))

def names16 : Tree (Nat × Nat × Nat) := .node 94610987540357217 [(24, 7, 90929)] (.node 92640920404566066 [(221, 46, 1)] (.node 92640877455679597 [(346, 74, 5056455265)] (.node 92640877454893154 [(342, 73, 5945503075)] (.node 92640877451812973 [(225, 46, 23225185)] (.node 92640877451812961 [(220, 45, 23225185)] .leaf .leaf) .leaf) (.node 92640877455679585 [(340, 72, 23225185)] .leaf .leaf)) (.node 92640920401485921 [(226, 46, 5925331810)] (.node 92640920401420337 [(38, 8, 90419)] .leaf .leaf) (.node 92640920401485933 [(217, 44, 23225185)] .leaf .leaf))) (.node 92640920405352545 [(343, 74, 1)] (.node 92640920404697197 [(347, 74, 23225185)] (.node 92640920404697186 [(339, 72, 23290210)] (.node 92640920404566125 [(348, 74, 5925331810)] .leaf .leaf) .leaf) (.node 92640920405352498 [(215, 44, 1)] .leaf .leaf)) (.node 92640920405352557 [(337, 71, 1)] (.node 92640920405352546 [(344, 74, 5945503075)] .leaf .leaf) (.node 94610987540357170 [(4, 3, 355)] .leaf .leaf)))) (.node 94610991835324465 [(5, 3, 353)] (.node 94610987543502897 [(23, 7, 90675)] (.node 94610987540357230 [(25, 7, 90930)] (.node 94610987540357229 [(19, 6, 355)] (.node 94610987540357218 [(26, 7, 90931)] .leaf .leaf) .leaf) (.node 94610987540422705 [(3, 3, 354)] .leaf .leaf)) (.node 94610987544289329 [(18, 6, 354)] (.node 94610987543633969 [(21, 7, 90673)] .leaf .leaf) (.node 94610987544354865 [(22, 7, 90674)] .leaf .leaf))) (.node 94610991838601314 [(162, 32, 23290210)] (.node 94610991838470241 [(135, 27, 23290210)] (.node 94610991835390002 [(108, 16, 1)] .leaf .leaf) (.node 94610991838470254 [(152, 30, 5056455265)] .leaf .leaf)) (.node 94610991839256674 [(139, 28, 23290210)] (.node 94610991838601325 [(140, 28, 5056455265)] .leaf .leaf) (.node 94610991839256685 [(126, 25, 23290210)] .leaf .leaf))))

def names17 : Tree (Nat × Nat × Nat) := .node 94611009018470499 [(478, 184, 1)] (.node 94611000425324594 [(366, 89, 1)] (.node 94610996130291821 [(447, 157, 1)] (.node 94610996130291762 [(438, 149, 1)] (.node 94610992892289075 [(492, 198, 1)] (.node 94610991839322222 [(171, 34, 23290210)] .leaf .leaf) .leaf) (.node 94610996130291811 [(449, 159, 1)] .leaf .leaf)) (.node 94610996133568561 [(448, 158, 1)] (.node 94610996130357297 [(439, 150, 1)] .leaf .leaf) (.node 94610996134223921 [(446, 156, 1)] .leaf .leaf))) (.node 94611000429256803 [(381, 104, 1)] (.node 94611000428535907 [(380, 103, 1)] (.node 94611000428470381 [(377, 100, 1)] (.node 94611000425390130 [(503, 207, 1)] .leaf .leaf) .leaf) (.node 94611000429191277 [(376, 99, 1)] .leaf .leaf)) (.node 94611001482293102 [(361, 86, 305), (362, 86, 306)] (.node 94611001482293101 [(358, 84, 1)] .leaf .leaf) (.node 94611009015259186 [(471, 177, 1)] .leaf .leaf)))) (.node 94611197996900461 [(263, 55, 1)] (.node 94611197993820270 [(153, 30, 23225185)] (.node 94611197993754673 [(27, 7, 90417)] (.node 94611010072293229 [(470, 176, 1)] (.node 94611009019125869 [(477, 183, 1)] .leaf .leaf) .leaf) (.node 94611197993820258 [(136, 27, 23225185)] .leaf .leaf)) (.node 94611197996900449 [(259, 54, 23290210)] (.node 94611197996900402 [(161, 32, 1)] .leaf .leaf) (.node 94611197996900450 [(262, 54, 5925331810)] .leaf .leaf))) (.node 94611197997031534 [(284, 60, 1)] (.node 94611197997031522 [(261, 54, 23225185)] (.node 94611197997031521 [(290, 61, 1)] (.node 94611197996900462 [(233, 50, 305), (234, 50, 306)] .leaf .leaf) .leaf) (.node 94611197997031533 [(269, 57, 1)] .leaf .leaf)) (.node 94611197997686881 [(273, 57, 23225185)] (.node 94611197997686834 [(138, 28, 5945503075)] .leaf .leaf) (.node 94611197997686882 [(232, 49, 23225185)] .leaf .leaf))))

def names18 : Tree (Nat × Nat × Nat) := .node 94611202292654177 [(265, 55, 23225185)] (.node 94611202291867745 [(260, 54, 5056455265)] (.node 94611197997752430 [(247, 52, 23290210)] (.node 94611197997752418 [(268, 56, 23225185)] (.node 94611197997752417 [(288, 60, 23225185)] (.node 94611197997686894 [(253, 53, 23290210)] .leaf .leaf) .leaf) (.node 94611197997752429 [(294, 62, 23290210)] .leaf .leaf)) (.node 94611202288787553 [(163, 32, 23225185)] (.node 94611202288721969 [(29, 7, 90419)] .leaf .leaf) (.node 94611202288787565 [(141, 28, 23225185)] .leaf .leaf))) (.node 94611202291998817 [(257, 54, 1)] (.node 94611202291867758 [(285, 60, 5945503075)] (.node 94611202291867757 [(270, 57, 5945503075)] (.node 94611202291867746 [(291, 61, 5945503075)] .leaf .leaf) .leaf) (.node 94611202291998770 [(134, 27, 1)] .leaf .leaf)) (.node 94611202291998829 [(230, 49, 1)] (.node 94611202291998818 [(258, 54, 5945503075)] .leaf .leaf) (.node 94611202291998830 [(266, 56, 1)] .leaf .leaf)))) (.node 94611245238394929 [(20, 6, 353)] (.node 94611202292719713 [(237, 50, 5123498849), (238, 50, 5140276065)] (.node 94611202292654190 [(295, 62, 5056455265)] (.node 94611202292654189 [(242, 51, 5056455265)] (.node 94611202292654178 [(274, 57, 5925331810)] .leaf .leaf) .leaf) (.node 94611202292719666 [(150, 30, 5945503075)] .leaf .leaf)) (.node 94611202292719725 [(254, 53, 5056455265)] (.node 94611202292719714 [(289, 60, 5925331810)] .leaf .leaf) (.node 94611202292719726 [(248, 52, 5056455265)] .leaf .leaf))) (.node 94611245241540705 [(231, 49, 23290210)] (.node 94611245238460525 [(127, 25, 23225185)] (.node 94611245238460513 [(142, 28, 5925331810)] .leaf .leaf) (.node 94611245241540658 [(137, 28, 1)] .leaf .leaf)) (.node 94611245241540717 [(244, 51, 5925331810)] (.node 94611245241540706 [(272, 57, 5056455265)] .leaf .leaf) (.node 94611245241540718 [(256, 53, 5925331810)] .leaf .leaf))))

def names19 : Tree (Nat × Nat × Nat) := .node 94611249536508013 [(297, 62, 5925331810)] (.node 94611245242392673 [(251, 53, 1)] (.node 94611245242327137 [(239, 51, 1)] (.node 94611245241671790 [(296, 62, 23225185)] (.node 94611245241671789 [(243, 51, 23225185)] (.node 94611245241671778 [(264, 55, 23290210)] .leaf .leaf) .leaf) (.node 94611245242327090 [(125, 25, 1)] .leaf .leaf)) (.node 94611245242327149 [(227, 47, 1)] (.node 94611245242327138 [(240, 51, 5945503075)] .leaf .leaf) (.node 94611245242327150 [(278, 59, 305), (279, 59, 306)] .leaf .leaf))) (.node 94611249533427810 [(154, 30, 5925331810)] (.node 94611245242392686 [(276, 58, 23290210)] (.node 94611245242392685 [(282, 59, 5123498849), (283, 59, 5140276065)] (.node 94611245242392674 [(293, 62, 5945503075)] .leaf .leaf) .leaf) (.node 94611249533362225 [(28, 7, 90418)] .leaf .leaf)) (.node 94611249536508001 [(267, 56, 23290210)] (.node 94611249533427822 [(172, 34, 23225185)] .leaf .leaf) (.node 94611249536508002 [(287, 60, 5056455265)] .leaf .leaf)))) (.node 94611249537294445 [(280, 59, 5123563874), (281, 59, 5140341090)] (.node 94611249536639085 [(255, 53, 23225185)] (.node 94611249536639073 [(286, 60, 23290210)] (.node 94611249536639026 [(149, 30, 1)] (.node 94611249536508014 [(250, 52, 5925331810)] .leaf .leaf) .leaf) (.node 94611249536639074 [(235, 50, 5123563874), (236, 50, 5140341090)] .leaf .leaf)) (.node 94611249537294433 [(292, 62, 1)] (.node 94611249536639086 [(249, 52, 23225185)] .leaf .leaf) (.node 94611249537294434 [(252, 53, 5945503075)] .leaf .leaf))) (.node 94611249537359981 [(275, 58, 1)] (.node 94611249537359969 [(245, 52, 1)] (.node 94611249537359922 [(170, 34, 1)] (.node 94611249537294446 [(277, 58, 23225185)] .leaf .leaf) .leaf) (.node 94611249537359970 [(246, 52, 5945503075)] .leaf .leaf)) (.node 94625294381429091 [(391, 114, 1)] (.node 94611249537359982 [(228, 48, 305), (229, 48, 306)] .leaf .leaf) (.node 94625294381429101 [(390, 113, 1)] .leaf .leaf))))

def names20 : Tree (Nat × Nat × Nat) := .node 23721689802120195428 [(426, 141, 305), (427, 141, 306)] (.node 23716005339634737261 [(398, 121, 1)] (.node 23499892944979304557 [(525, 227, 305), (526, 227, 306)] (.node 23499838034894925107 [(497, 202, 1)] (.node 23499838034743930163 [(498, 203, 305), (499, 203, 306)] (.node 23499832557521018989 [(512, 216, 1)] .leaf .leaf) .leaf) (.node 23499892944979304547 [(527, 228, 305), (528, 228, 306)] .leaf .leaf)) (.node 23499902840583954541 [(523, 225, 1)] (.node 23499902840583954531 [(524, 226, 1)] .leaf .leaf) (.node 23716005339634737252 [(399, 122, 1)] .leaf .leaf))) (.node 23716010817008708915 [(500, 204, 1)] (.node 23716005339637948466 [(397, 120, 1)] (.node 23716005339634802797 [(513, 217, 1)] (.node 23716005339634802788 [(516, 220, 1)] .leaf .leaf) .leaf) (.node 23716005339638603826 [(396, 119, 1)] .leaf .leaf)) (.node 23716075622697738349 [(529, 229, 1)] (.node 23716062428558205028 [(530, 230, 1)] .leaf .leaf) (.node 23721689802120192868 [(428, 142, 305), (429, 142, 306)] .leaf .leaf)))) (.node 24220408497903378482 [(394, 117, 1)] (.node 24220408497900232803 [(389, 112, 1)] (.node 24220408493608476721 [(457, 165, 1)] (.node 24220408493605199981 [(454, 162, 1)] (.node 24220408493605199971 [(455, 163, 1)] .leaf .leaf) .leaf) (.node 24220408493609132081 [(456, 164, 1)] .leaf .leaf)) (.node 24220408497900298349 [(511, 215, 1)] (.node 24220408497900232813 [(388, 111, 1)] .leaf .leaf) (.node 24220408497900298350 [(514, 218, 1)] .leaf .leaf))) (.node 24220408506490167395 [(484, 190, 1)] (.node 24220408497904099378 [(392, 115, 1)] (.node 24220408497903444018 [(393, 116, 1)] .leaf .leaf) (.node 24220408497904164914 [(395, 118, 1)] .leaf .leaf)) (.node 24220408506493378610 [(482, 188, 1)] (.node 24220408506490167405 [(483, 189, 1)] .leaf .leaf) (.node 24220408506494033970 [(481, 187, 1)] .leaf .leaf))))

def names21 : Tree (Nat × Nat × Nat) := .node 24226092964730843442 [(371, 94, 1)] (.node 24226092960435876146 [(369, 92, 1)] (.node 24220479880474861678 [(518, 222, 305), (519, 222, 306)] (.node 24220478780963233902 [(520, 223, 1)] (.node 24220478780963233901 [(517, 221, 1)] (.node 24220413975290981683 [(495, 201, 305), (496, 201, 306)] .leaf .leaf) .leaf) (.node 24220479880474861677 [(521, 224, 305), (522, 224, 306)] .leaf .leaf)) (.node 24225530010479517489 [(114, 18, 23225185)] (.node 24225480730007985969 [(113, 18, 23290210)] .leaf .leaf) (.node 24225530010482454834 [(112, 18, 1)] .leaf .leaf))) (.node 24226092964681507427 [(414, 133, 305), (415, 133, 306)] (.node 24226092964681444707 [(412, 131, 1)] (.node 24226092964681442157 [(413, 132, 1)] (.node 24226092964681441891 [(418, 135, 1)] .leaf .leaf) .leaf) (.node 24226092964681444973 [(419, 136, 1)] .leaf .leaf)) (.node 24226092964681510243 [(420, 137, 305), (421, 137, 306)] (.node 24226092964681507693 [(422, 138, 305), (423, 138, 306)] .leaf .leaf) (.node 24226092964681510509 [(416, 134, 305), (417, 134, 306)] .leaf .leaf)))) (.node 5923724518343753932849 [(93, 15, 19751473)] (.node 24364523681681125229 [(458, 166, 328), (459, 166, 338)] (.node 24226655918929833315 [(488, 194, 1)] (.node 24226655918929830765 [(487, 193, 1)] (.node 24226092969025810738 [(373, 96, 1)] .leaf .leaf) .leaf) (.node 24364523681681125219 [(460, 167, 328), (461, 167, 338)] .leaf .leaf)) (.node 5923724518339204231021 [(66, 12, 90929)] (.node 5923724518339204231009 [(96, 15, 90929)] .leaf .leaf) (.node 5923724518339204231022 [(100, 15, 19751730)] .leaf .leaf))) (.node 5923724869083417354337 [(178, 36, 23290210)] (.node 5923724869083413487666 [(117, 20, 23290210)] (.node 5923724518343754784817 [(91, 15, 90674)] (.node 5923724518343754719281 [(64, 12, 90674)] .leaf .leaf) .leaf) (.node 5923724869083416567917 [(179, 36, 5056455265)] .leaf .leaf)) (.node 5942171262412913782637 [(67, 12, 90930)] (.node 5942171262412913782626 [(99, 15, 19751729)] .leaf .leaf) (.node 5942171262412913782638 [(97, 15, 90930)] .leaf .leaf))))

def names22 : Tree (Nat × Nat × Nat) := .node 6071298470928880643949 [(68, 12, 90931)] (.node 5960618287965895024433 [(116, 20, 1)] (.node 5942188150916868284514 [(181, 36, 5925331810)] (.node 5942171560642557845553 [(106, 15, 19751218)] (.node 5942171560638262878257 [(69, 12, 90417)] (.node 5942171560591018238001 [(102, 15, 90417)] .leaf .leaf) .leaf) (.node 5942185054692124467309 [(180, 36, 23225185)] .leaf .leaf)) (.node 5960618006491173822513 [(63, 12, 90673)] (.node 5960618006491173167153 [(90, 15, 90673)] .leaf .leaf) (.node 5960618006491173888049 [(94, 15, 19751474)] .leaf .leaf))) (.node 5960634895199974350641 [(176, 36, 1)] (.node 5960618304716267397169 [(103, 15, 90418)] (.node 5960618304711972429873 [(70, 12, 90418)] (.node 5960618304669022756913 [(105, 15, 19751217)] .leaf .leaf) .leaf) (.node 5960632080493156917041 [(177, 36, 5945503075)] .leaf .leaf)) (.node 6071298470928880643937 [(101, 15, 19751731)] (.node 6015959152401914732594 [(506, 210, 1)] .leaf .leaf) (.node 6071298470928880643938 [(98, 15, 90931)] .leaf .leaf)))) (.node 6071299384623043321906 [(375, 98, 1)] (.node 6071298769111280066609 [(104, 15, 90419)] (.node 6071298470933431132209 [(65, 12, 90675)] (.node 6071298470933430476849 [(95, 15, 19751475)] (.node 6071298470933430345777 [(92, 15, 90675)] .leaf .leaf) .leaf) (.node 6071298769106985099313 [(107, 15, 19751219)] .leaf .leaf)) (.node 6071299332104186437741 [(425, 140, 1)] (.node 6071298769154229739569 [(71, 12, 90419)] .leaf .leaf) (.node 6071299332104187093101 [(424, 139, 1)] .leaf .leaf))) (.node 6200425679444847505249 [(75, 13, 90929)] (.node 6071299384623046533220 [(387, 110, 1)] (.node 6071299384623043387442 [(510, 214, 1)] .leaf .leaf) (.node 6071299384623047188580 [(386, 109, 1)] .leaf .leaf)) (.node 6200425679444847505261 [(58, 10, 355)] (.node 6200425679444847505250 [(77, 13, 90931)] .leaf .leaf) (.node 6200425679444847505262 [(76, 13, 90930)] .leaf .leaf))))

def names23 : Tree (Nat × Nat × Nat) := .node 6200426030189060628577 [(130, 26, 23290210)] (.node 6200425977627246927921 [(80, 13, 90419)] (.node 6200425679450199367729 [(6, 4, 354)] (.node 6200425679449397993521 [(57, 10, 354)] (.node 6200425679449397338161 [(72, 13, 90673)] (.node 6200425679449397207089 [(74, 13, 90675)] .leaf .leaf) .leaf) (.node 6200425679449398059057 [(73, 13, 90674)] .leaf .leaf)) (.node 6200425960925176078386 [(111, 17, 23225185)] (.node 6200425960924119195441 [(109, 17, 1)] .leaf .leaf) (.node 6200425977622951960625 [(78, 13, 90417)] .leaf .leaf))) (.node 6200426030189059842146 [(145, 29, 23290210)] (.node 6200426030189056696369 [(8, 4, 353)] (.node 6200425977674491568177 [(79, 13, 90418)] (.node 6200425977670196600881 [(59, 10, 353)] .leaf .leaf) .leaf) (.node 6200426030189056761906 [(110, 17, 23290210)] .leaf .leaf)) (.node 6200426030189059973217 [(146, 29, 5056455265)] (.node 6200426030189059842157 [(131, 26, 5056455265)] .leaf .leaf) (.node 6200426030189059973230 [(167, 33, 5056455265)] .leaf .leaf)))) (.node 6200426540620153233517 [(406, 127, 1)] (.node 6200426311664033472561 [(441, 152, 1)] (.node 6200426030189060694125 [(158, 31, 5056455265)] (.node 6200426030189060694114 [(166, 33, 23290210)] (.node 6200426030189060628590 [(157, 31, 23290210)] .leaf .leaf) .leaf) (.node 6200426311664033407026 [(440, 151, 1)] .leaf .leaf)) (.node 6200426311668328439857 [(443, 154, 1)] (.node 6200426311668328374322 [(442, 153, 1)] .leaf .leaf) (.node 6200426523875129499698 [(367, 90, 1)] .leaf .leaf))) (.node 6200426540624448200813 [(402, 125, 305), (403, 125, 306)] (.node 6200426540620153954413 [(400, 123, 1)] (.node 6200426540620153299043 [(401, 124, 1)] .leaf .leaf) (.node 6200426540620154019939 [(407, 128, 1)] .leaf .leaf)) (.node 6200426540624448921709 [(408, 129, 305), (409, 129, 306)] (.node 6200426540624448266339 [(410, 130, 305), (411, 130, 306)] .leaf .leaf) (.node 6200426540624448987235 [(404, 126, 305), (405, 126, 306)] .leaf .leaf))))

def names24 : Tree (Nat × Nat × Nat) := .node 6200427156106143473714 [(473, 179, 1)] (.node 6200426593147600183346 [(508, 212, 1)] (.node 6200426593143308361837 [(378, 101, 1)] (.node 6200426593143305216050 [(504, 208, 1)] (.node 6200426593143305150514 [(370, 93, 1)] (.node 6200426593139010248754 [(509, 213, 1)] .leaf .leaf) .leaf) (.node 6200426593143308296291 [(383, 106, 1)] .leaf .leaf)) (.node 6200426593143309082733 [(379, 102, 1)] (.node 6200426593143309017187 [(382, 105, 1)] .leaf .leaf) (.node 6200426593147600117810 [(372, 95, 1)] .leaf .leaf))) (.node 6200427156097553539122 [(476, 182, 1)] (.node 6200427156088963604530 [(472, 178, 1)] (.node 6200427103570107375725 [(485, 191, 1)] (.node 6200427103570106720355 [(486, 192, 1)] .leaf .leaf) .leaf) (.node 6200427156093258571826 [(474, 180, 1)] .leaf .leaf)) (.node 6200427156097557405795 [(480, 186, 1)] (.node 6200427156097556750445 [(479, 185, 1)] .leaf .leaf) (.node 6200427156101848506418 [(475, 181, 1)] .leaf .leaf)))) (.node 6200442567948802007138 [(133, 26, 5925331810)] (.node 6200439753199034900578 [(147, 29, 23225185)] (.node 6200439471933454704433 [(144, 29, 5945503075)] (.node 6200439471724058189933 [(132, 26, 23225185)] (.node 6200439471724058189921 [(148, 29, 5925331810)] .leaf .leaf) .leaf) (.node 6200439471980699344689 [(165, 33, 5945503075)] .leaf .leaf)) (.node 6200439753399841480497 [(143, 29, 1)] (.node 6200439753199034900590 [(168, 33, 23225185)] .leaf .leaf) (.node 6200439753451381088049 [(129, 26, 5945503075)] .leaf .leaf))) (.node 6200442849423778717793 [(169, 33, 5925331810)] (.node 6200442568158198521649 [(128, 26, 1)] (.node 6200442567948802007150 [(160, 31, 5925331810)] .leaf .leaf) (.node 6200442568205443161905 [(155, 31, 1)] .leaf .leaf)) (.node 6200442849624585297713 [(164, 33, 1)] (.node 6200442849423778717805 [(159, 31, 23225185)] .leaf .leaf) (.node 6200442849676124905265 [(156, 31, 5945503075)] .leaf .leaf))))

def names25 : Tree (Nat × Nat × Nat) := .node 406351097328448266019086385 [(60, 11, 354)] (.node 1587644334766978160025393 [(115, 19, 1)] (.node 1587308691036914932588593 [(456, 164, 1)] (.node 1587308691036910382100333 [(454, 162, 1)] (.node 1587308691036910382100323 [(455, 163, 1)] (.node 1554587769386890643529521 [(124, 24, 1)] .leaf .leaf) .leaf) (.node 1587308691036914931933233 [(457, 165, 1)] .leaf .leaf)) (.node 1587308691318390710673517 [(390, 113, 1)] (.node 1587308691318390710673507 [(391, 114, 1)] .leaf .leaf) (.node 1587309063728463744085299 [(501, 205, 1)] .leaf .leaf))) (.node 406351097328097526906171245 [(61, 11, 355)] (.node 406351097328097526906171233 [(84, 14, 90929)] (.node 397888676470672461686186084 [(426, 141, 305), (427, 141, 306)] (.node 397888676470672461685530724 [(428, 142, 305), (429, 142, 306)] .leaf .leaf) .leaf) (.node 406351097328097526906171234 [(86, 14, 90931)] .leaf .leaf)) (.node 406351097328448266018299953 [(83, 14, 90675)] (.node 406351097328097526906171246 [(85, 14, 90930)] .leaf .leaf) (.node 406351097328448266018431025 [(81, 14, 90673)] .leaf .leaf)))) (.node 406351157207958172424282162 [(369, 92, 1)] (.node 406351120314486722781061169 [(87, 14, 90417)] (.node 406351120314470023948295985 [(114, 18, 23225185)] (.node 406351115775192339473129265 [(113, 18, 23290210)] (.node 406351097328448266019151921 [(82, 14, 90674)] .leaf .leaf) .leaf) (.node 406351120314470025005178930 [(112, 18, 1)] .leaf .leaf)) (.node 406351120314486770025701425 [(62, 11, 353)] (.node 406351120314486727076028465 [(89, 14, 90419)] .leaf .leaf) (.node 406351120314486774320668721 [(88, 14, 90418)] .leaf .leaf))) (.node 406351157208256392425513069 [(419, 136, 1)] (.node 406351157208256392424792173 [(413, 132, 1)] (.node 406351157208256392424726627 [(418, 135, 1)] (.node 406351157208239647400992818 [(371, 94, 1)] .leaf .leaf) .leaf) (.node 406351157208256392425447523 [(412, 131, 1)] .leaf .leaf)) (.node 406351157208256396719759469 [(422, 138, 305), (423, 138, 306)] (.node 406351157208256396719693923 [(414, 133, 305), (415, 133, 306)] .leaf .leaf) (.node 406351157208256396720414819 [(420, 137, 305), (421, 137, 306)] .leaf .leaf))))

def names26 : Tree (Nat × Nat × Nat) := .node 25600660610955947830975619276849 [(10, 5, 90674)] (.node 25442204357500781956355773837153 [(326, 68, 5123563874), (327, 68, 5140341090), (328, 68, 1310726513249), (329, 68, 1315021480545)] (.node 100931045265903575870764887917 [(523, 225, 1)] (.node 406351194102026014821261411 [(488, 194, 1)] (.node 406351194102026014820606061 [(487, 193, 1)] (.node 406351157208521122377703474 [(373, 96, 1)] .leaf .leaf) .leaf) (.node 100931045265903575870764887907 [(524, 226, 1)] .leaf .leaf)) (.node 104025895364117026558012698477 [(517, 221, 1)] (.node 101859500295367611076939231085 [(529, 229, 1)] .leaf .leaf) (.node 104025895364189084152050626414 [(518, 222, 305), (519, 222, 306)] .leaf .leaf))) (.node 25521432519959706061779728740194 [(315, 66, 23225185)] (.node 25442204357648355908996989857645 [(311, 65, 23290210)] (.node 25442204357648355908945450250081 [(314, 66, 23290210)] (.node 25442204357500781956407313444717 [(318, 67, 23290210), (319, 67, 5056455265)] .leaf .leaf) .leaf) (.node 25521432519959706061745369001826 [(330, 68, 5123498849), (331, 68, 5140276065), (332, 68, 1311595389794), (333, 68, 1315890357090)] .leaf .leaf)) (.node 25521432520162620246590533807981 [(312, 65, 23225185)] (.node 25521432520162620246556174069613 [(320, 67, 23225185), (321, 67, 5925331810)] .leaf .leaf) (.node 25600660610955947830975619211314 [(12, 5, 90929)] .leaf .leaf)))) (.node 25600660682676884584184077758309 [(316, 67, 1), (317, 67, 5945503075)] (.node 25600660610955950082775432962097 [(11, 5, 90675)] (.node 25600660610955948393929867599921 [(16, 5, 90418)] (.node 25600660610955948393925572698161 [(9, 5, 90673)] (.node 25600660610955948112454890889265 [(15, 5, 90417)] .leaf .leaf) .leaf) (.node 25600660610955950082775432896562 [(14, 5, 90931)] .leaf .leaf)) (.node 25600660682492417143404032569189 [(322, 68, 305), (323, 68, 306), (324, 68, 1311615561059), (325, 68, 1315910528355)] (.node 25600660610955950082779727863857 [(17, 5, 90419)] .leaf .leaf) (.node 25600660682492417143404032569197 [(313, 66, 1)] .leaf .leaf))) (.node 25600719848321108947805182959665 [(42, 9, 19751473)] (.node 25600719848321108947805179813985 [(45, 9, 90929)] (.node 25600660682676884584184077758317 [(310, 65, 1)] .leaf .leaf) (.node 25600719848321108947805179813998 [(49, 9, 19751730)] .leaf .leaf)) (.node 25600719848321109229280156524654 [(46, 9, 90930)] (.node 25600719848321108947805183811633 [(40, 9, 90674)] .leaf .leaf) (.node 25600719848321109229490609922097 [(51, 9, 90417)] .leaf .leaf))))

def names27 : Tree (Nat × Nat × Nat) := .node 25600731937579307346154438598705 [(38, 8, 90419)] (.node 25600719848321111199815446896689 [(56, 9, 19751219)] (.node 25600719848321111199604993499233 [(50, 9, 19751731)] (.node 25600719848321109510969881600049 [(54, 9, 19751217)] (.node 25600719848321109510755137232945 [(43, 9, 19751474)] (.node 25600719848321109510755136512049 [(39, 9, 90673)] .leaf .leaf) .leaf) (.node 25600719848321109511017126240305 [(52, 9, 90418)] .leaf .leaf)) (.node 25600719848321111199604996644913 [(41, 9, 90675)] (.node 25600719848321111199604993499234 [(47, 9, 90931)] .leaf .leaf) (.node 25600719848321111199604996775985 [(44, 9, 19751475)] .leaf .leaf))) (.node 25600731937579305657046884229169 [(30, 8, 90673)] (.node 25600731937579305094096930807857 [(31, 8, 90674)] (.node 25600731937579305094096926875757 [(33, 8, 90929)] (.node 25600719848321111199819741863985 [(53, 9, 90419)] .leaf .leaf) .leaf) (.node 25600731937579305375829601624113 [(36, 8, 90417)] .leaf .leaf)) (.node 25600731937579307345896740561005 [(35, 8, 90931)] (.node 25600731937579305657304578334769 [(37, 8, 90418)] .leaf .leaf) (.node 25600731937579307345896744493105 [(32, 8, 90675)] .leaf .leaf)))) (.node 26076029657762470609693801852781 [(348, 74, 5925331810)] (.node 26076029657559556424934536392557 [(345, 74, 23290210)] (.node 26076029657559556424882996785005 [(338, 72, 1)] (.node 25838345170219677596964709609325 [(334, 69, 1)] (.node 25838345170053656900262668939108 [(335, 70, 305), (336, 70, 306)] .leaf .leaf) .leaf) (.node 26076029657559556424891586719585 [(341, 73, 1)] .leaf .leaf)) (.node 26076029657578003169008245944161 [(340, 72, 23225185)] (.node 26076029657578003168956706336610 [(342, 73, 5945503075)] .leaf .leaf) (.node 26076029657578003169008245944173 [(346, 74, 5056455265)] .leaf .leaf))) (.node 26076029657762470609745341460333 [(337, 71, 1)] (.node 26076029657762470609745341460321 [(343, 74, 1)] (.node 26076029657762470609702391787373 [(347, 74, 23225185)] (.node 26076029657762470609702391787362 [(339, 72, 23290210)] .leaf .leaf) .leaf) (.node 26076029657762470609745341460322 [(344, 74, 5945503075)] .leaf .leaf)) (.node 26076032075614109838960741199725 [(425, 140, 1)] (.node 26076029883329257195584598728497 [(124, 24, 1)] .leaf .leaf) (.node 26076032075614109839003690872685 [(424, 139, 1)] .leaf .leaf))))

def names28 : Tree (Nat × Nat × Nat) := .node 26630629213232406998751323037795 [(410, 130, 305), (411, 130, 306)] (.node 26630626795380767716930908991330 [(235, 50, 5123563874), (236, 50, 5140341090)] (.node 26630626795177853532120103923565 [(230, 49, 1)] (.node 26630626795159406788037804437358 [(233, 50, 305), (234, 50, 306)] (.node 26630626723641388441820636192817 [(5, 3, 353)] (.node 26630626723641388441816341291057 [(3, 3, 354)] .leaf .leaf) .leaf) (.node 26630626795159406788089344044898 [(232, 49, 23225185)] .leaf .leaf)) (.node 26630626795362320972848609505121 [(231, 49, 23290210)] (.node 26630626795177853532167348563809 [(237, 50, 5123498849), (238, 50, 5140276065)] .leaf .leaf) (.node 26630626795362320972900149112685 [(227, 47, 1)] .leaf .leaf))) (.node 26630629213213960254677613420653 [(406, 127, 1)] (.node 26630629213213960202115548852067 [(401, 124, 1)] (.node 26630627020929107558739406380849 [(115, 19, 1)] (.node 26630626795380767716978153631598 [(228, 48, 305), (229, 48, 306)] .leaf .leaf) .leaf) (.node 26630629213213960202158498525037 [(400, 123, 1)] .leaf .leaf)) (.node 26630629213232406946184963436397 [(402, 125, 305), (403, 125, 306)] (.node 26630629213213960254677614207075 [(407, 128, 1)] .leaf .leaf) (.node 26630629213232406946236503043939 [(404, 126, 305), (405, 126, 306)] .leaf .leaf)))) (.node 26630685961006549558856355225649 [(27, 7, 90417)] (.node 26630685961006549558645901828206 [(25, 7, 90930)] (.node 26630631631065599431416847937389 [(485, 191, 1)] (.node 26630631631065599431373898264419 [(486, 192, 1)] (.node 26630629213232406998751323693165 [(408, 129, 305), (409, 129, 306)] .leaf .leaf) .leaf) (.node 26630685961006549558645901828193 [(24, 7, 90929)] .leaf .leaf)) (.node 26630685961006549558645905104945 [(21, 7, 90673)] (.node 26630685961006549558645904973873 [(23, 7, 90675)] .leaf .leaf) (.node 26630685961006549558645905825841 [(22, 7, 90674)] .leaf .leaf))) (.node 26630698050264745704937652822065 [(18, 6, 354)] (.node 26630685961006549558907894833201 [(28, 7, 90418)] (.node 26630685961006549558860650192945 [(29, 7, 90419)] .leaf .leaf) (.node 26630698050264745704937648889965 [(19, 6, 355)] .leaf .leaf)) (.node 6614617040291634759791520230027107 [(527, 228, 305), (528, 228, 306)] (.node 26630698050264745705195346927665 [(20, 6, 353)] .leaf .leaf) (.node 6614617040291634759791520230027117 [(525, 227, 305), (526, 227, 306)] .leaf .leaf))))

def names29 : Tree (Nat × Nat × Nat) := .node 1745264757647566883264504727105253230 [(247, 52, 23290210)] (.node 1672572601641377483922449950319980386 [(309, 64, 5925331810)] (.node 1667380319565659497857401429247012717 [(301, 63, 5056455265)] (.node 1667380319565659350283448839570599789 [(307, 64, 5056455265)] (.node 6817441136332874551089802767380333 [(521, 224, 305), (522, 224, 306)] (.node 6817441136332874479032208729452398 [(520, 223, 1)] .leaf .leaf) .leaf) (.node 1667380319565659350283448891110207329 [(306, 64, 23290210)] .leaf .leaf)) (.node 1672572601628079299906689029398212461 [(308, 64, 23225185)] (.node 1667380319565659497857401480786620257 [(300, 63, 23290210)] .leaf .leaf) (.node 1672572601628079299906689063757950829 [(302, 63, 23225185)] .leaf .leaf))) (.node 1677764898499912308106272971003342701 [(298, 63, 1)] (.node 1677764898487823049912941429023387501 [(299, 63, 5945503075)] (.node 1677764898487823049912941429023387493 [(305, 64, 5945503075)] (.node 1672572601641377483922449984679718754 [(303, 63, 5925331810)] .leaf .leaf) .leaf) (.node 1677764898499912308106272971003342693 [(304, 64, 1)] .leaf .leaf)) (.node 1708918852890262926053391753993662308 [(426, 141, 305), (427, 141, 306)] (.node 1708918852890262926053391711043989348 [(428, 142, 305), (429, 142, 306)] .leaf .leaf) (.node 1745264757647566883261408502361436002 [(261, 54, 23225185)] .leaf .leaf)))) (.node 1745264757660865070721876881749192558 [(256, 53, 5925331810)] (.node 1745264757648775812525730598592065378 [(258, 54, 5945503075)] (.node 1745264757648775809080460181582720865 [(260, 54, 5056455265)] (.node 1745264757647566886706116012367032173 [(241, 51, 23290210)] (.node 1745264757647566886706115960827424609 [(259, 54, 23290210)] .leaf .leaf) .leaf) (.node 1745264757648775809083837881303248749 [(242, 51, 5056455265)] .leaf .leaf)) (.node 1745264757660865067277169423283203949 [(243, 51, 23225185)] (.node 1745264757648775812525730645836705646 [(248, 52, 5056455265)] .leaf .leaf) (.node 1745264757660865067280265648027021153 [(251, 53, 1)] .leaf .leaf))) (.node 1745264757662073996541491566758473569 [(245, 52, 1)] (.node 1745264757662073993099598802225016674 [(252, 53, 5945503075)] (.node 1745264757662073993096221102504488814 [(250, 52, 5925331810)] (.node 1745264757660865070721876933288800098 [(240, 51, 5945503075)] .leaf .leaf) .leaf) (.node 1745264757662073996541491519513833325 [(255, 53, 23225185)] .leaf .leaf)) (.node 1745264772443681709371174114919853934 [(253, 53, 23290210)] (.node 1745264772443681709371174063380246370 [(262, 54, 5925331810)] .leaf .leaf) (.node 1745264772443681727817918145679732577 [(257, 54, 1)] .leaf .leaf))))

def names30 : Tree (Nat × Nat × Nat) := .node 109954000387297984625668284408517250719793 [(90, 15, 90673)] (.node 1745265089358749820981938515300462445 [(487, 193, 1)] (.node 1745264930901215866633648699037855597 [(413, 132, 1)] (.node 1745264772443681930732102956484800366 [(249, 52, 23225185)] (.node 1745264772443681912285358925724921697 [(239, 51, 1)] (.node 1745264772443681912285358874185314157 [(244, 51, 5925331810)] .leaf .leaf) .leaf) (.node 1745264772443681930732103003729440610 [(246, 52, 5945503075)] .leaf .leaf)) (.node 1745264930901215885080392768452439907 [(414, 133, 305), (415, 133, 306)] (.node 1745264930901215866633648741987528547 [(412, 131, 1)] .leaf .leaf) (.node 1745264930901215885080392819992047469 [(416, 134, 305), (417, 134, 306)] .leaf .leaf))) (.node 109954000387297984625631390920369832337457 [(91, 15, 90674)] (.node 109954000387297984625631390920365281783662 [(100, 15, 19751730)] (.node 109954000387297984625631390920365281783649 [(96, 15, 90929)] (.node 1745265089358749820981938558250135395 [(488, 194, 1)] .leaf .leaf) .leaf) (.node 109954000387297984625631390920369831485489 [(93, 15, 19751473)] .leaf .leaf)) (.node 109954000387297984625649837962617095790641 [(102, 15, 90417)] (.node 109954000387297984625649837664438991335278 [(97, 15, 90930)] .leaf .leaf) (.node 109954000387297984625649837962668635398193 [(106, 15, 19751218)] .leaf .leaf)))) (.node 109954000387297984625778965171137357619249 [(104, 15, 90419)] (.node 109954000387297984625778964872954958196578 [(98, 15, 90931)] (.node 109954000387297984625668284706742344949809 [(103, 15, 90418)] (.node 109954000387297984625668284706695100309553 [(105, 15, 19751217)] (.node 109954000387297984625668284408517251440689 [(94, 15, 19751474)] .leaf .leaf) .leaf) (.node 109954000387297984625778964872954958196577 [(101, 15, 19751731)] .leaf .leaf)) (.node 109954000387297984625778964872959508029489 [(95, 15, 19751475)] (.node 109954000387297984625778964872959507898417 [(92, 15, 90675)] .leaf .leaf) (.node 109954000387297984625778965171133062651953 [(107, 15, 19751219)] .leaf .leaf))) (.node 109954000388090266250810927784452690878513 [(63, 12, 90673)] (.node 109954000388090266250774034296305271775281 [(64, 12, 90674)] (.node 109954000388090266250774034296300721287021 [(66, 12, 90929)] .leaf .leaf) (.node 109954000388090266250792481338599779934257 [(69, 12, 90417)] .leaf .leaf)) (.node 109954000388090266250921608248890397699949 [(68, 12, 90931)] (.node 109954000388090266250810928082673489485873 [(70, 12, 90418)] .leaf .leaf) (.node 109954000388090266250921608248894948188209 [(65, 12, 90675)] .leaf .leaf))))

def names31 : Tree (Nat × Nat × Nat) := .node 114377671158141681437343187659909428752225 [(267, 56, 23290210)] (.node 114377671157270184650931961978088462360625 [(73, 13, 90674)] (.node 114377671157270184650931961978083911806817 [(75, 13, 90929)] (.node 114377671157270171649686279946380445298542 [(285, 60, 5945503075)] (.node 114377671157190943487172019267961598586721 [(288, 60, 23225185)] (.node 114377671157190943487172016171736854769517 [(269, 57, 1)] .leaf .leaf) .leaf) (.node 114377671157270171649686283324080165826402 [(274, 57, 5925331810)] .leaf .leaf)) (.node 114377671157270184650931961978088461508657 [(74, 13, 90675)] (.node 114377671157270184650931961978083911806830 [(76, 13, 90930)] .leaf .leaf) (.node 114377671157270184650931961978088461639729 [(72, 13, 90673)] .leaf .leaf))) (.node 114377671158062453274828926981490582040430 [(276, 58, 23290210)] (.node 114377671157270184650931962276313555869745 [(79, 13, 90418)] (.node 114377671157270184650931962276266311229489 [(80, 13, 90419)] (.node 114377671157270184650931962276262016262193 [(78, 13, 90417)] .leaf .leaf) .leaf) (.node 114377671158062453274828923885265838223202 [(264, 55, 23290210)] .leaf .leaf)) (.node 114377671158062466276074605354023901798449 [(57, 10, 354)] (.node 114377671158062466276074605354019351310189 [(58, 10, 355)] .leaf .leaf) (.node 114377671158062466276074605652244700405809 [(59, 10, 353)] .leaf .leaf)))) (.node 114377672126869125714275083032317802917741 [(270, 57, 5945503075)] (.node 114377672126869124505349263980638581632878 [(284, 60, 1)] (.node 114377672126864437500498925447880127881265 [(6, 4, 354)] (.node 114377672126864437500498925447874776031025 [(7, 4, 355)] (.node 114377671158141681437343191037609149280109 [(280, 59, 5123563874), (281, 59, 5140341090)] .leaf .leaf) .leaf) (.node 114377672126864437500498925798618985209905 [(8, 4, 353)] .leaf .leaf)) (.node 114377672126869124505352708688097047621485 [(263, 55, 1)] (.node 114377672126869124505349267076863325450082 [(268, 56, 23225185)] .leaf .leaf) (.node 114377672126869124505352708688148587229025 [(273, 57, 23225185)] .leaf .leaf))) (.node 114377672126869137803533279741559503400801 [(271, 57, 23290210)] (.node 114377672126869125714278528302734812262254 [(266, 56, 1)] (.node 114377672126869125714275086410017523445601 [(265, 55, 23225185)] .leaf .leaf) (.node 114377672126869125714278528302782056902498 [(289, 60, 5925331810)] .leaf .leaf)) (.node 114377672126869137803536724449017969389410 [(272, 57, 5056455265)] (.node 114377672126869137803533282837784247218029 [(282, 59, 5123498849), (283, 59, 5140276065)] .leaf .leaf) (.node 114377672126869137803536724449069508996974 [(278, 59, 305), (279, 59, 306)] .leaf .leaf))))

def names32 : Tree (Nat × Nat × Nat) := .node 7495855120506495894320745287758556935970959201 [(292, 62, 1)] (.node 7205962023082213025133496755493204720674283618 [(48, 9, 19751729)] (.node 114377682511542083035706245847660006354797 [(419, 136, 1)] (.node 114377672126869139012462544063702978670445 [(275, 58, 1)] (.node 114377672126869139012462544063655734030177 [(286, 60, 23290210)] (.node 114377672126869139012459102170938445213550 [(277, 58, 23225185)] .leaf .leaf) .leaf) (.node 114377682511542083035706245847608466747235 [(418, 135, 1)] .leaf .leaf)) (.node 114377682511542084244632065462284886093667 [(420, 137, 305), (421, 137, 306)] (.node 114377682511542084244632065462241936420717 [(422, 138, 305), (423, 138, 306)] .leaf .leaf) (.node 7205945349246233899148787050123929765149810738 [(13, 5, 90930)] .leaf .leaf))) (.node 7495855120506495022810957630850843406987505518 [(295, 62, 5056455265)] (.node 7495855120506494943582795116586787288420265837 [(294, 62, 23290210)] (.node 7495855120506494943582795116583691063676448609 [(290, 61, 1)] (.node 7205965425905882234518131389242375263100215405 [(34, 8, 90930)] .leaf .leaf) .leaf) (.node 7495855120506495022810957630847465707266977634 [(291, 61, 5945503075)] .leaf .leaf)) (.node 7495855120506495815092582773494500817403719522 [(293, 62, 5945503075)] (.node 7495855120506495815092582773491404592659902318 [(296, 62, 23225185)] .leaf .leaf) (.node 7495855120506495894320745287755179236250431341 [(297, 62, 5925331810)] .leaf .leaf)))) (.node 491248361177513657815790968932260128699077949988913 [(88, 14, 90418)] (.node 491248361177513657815790968932237142660569647751217 [(81, 14, 90673)] (.node 491248361177513657815790968932237142309830535491438 [(85, 14, 90930)] (.node 491248361177513657815790968932237142309830535491425 [(84, 14, 90929)] (.node 7495871710663112235167736292738359729868251234 [(26, 7, 90931)] .leaf .leaf) .leaf) (.node 491248361177513657815790968932237142660569647620145 [(83, 14, 90675)] .leaf .leaf)) (.node 491248361177513657815790968932260128699026410381361 [(87, 14, 90417)] (.node 491248361177513657815790968932237142660569648472113 [(82, 14, 90674)] .leaf .leaf) (.node 491248361177513657815790968932260128699030705348657 [(89, 14, 90419)] .leaf .leaf))) (.node 2028293305025046841038523177574575123648859116462217161224034 [(99, 15, 19751729)] (.node 491248361177513709738759554280513427965532940607537 [(60, 11, 354)] (.node 491248361177513709738759554280513427614793827692397 [(61, 11, 355)] .leaf .leaf) (.node 491248361177513709738759554280536414004036947222577 [(62, 11, 353)] .leaf .leaf)) (.node 2109895627585073690973152393213167925546676981744354494394210 [(77, 13, 90931)] (.node 2028293305039661857411832206756611971976224860843587291721581 [(67, 12, 90930)] .leaf .leaf) (.node 593882827670869077964937537829138474982336011896883987088060971426314792802 [(86, 14, 90931)] .leaf .leaf))))

def namesTree : Tree (Nat × Nat × Nat) := .node 94610991839322209 [(151, 30, 23290210)] (.node 1414674592612 [(530, 230, 1)] (.node 5640433517 [(57, 10, 354), (58, 10, 355), (59, 10, 353)] (.node 5422329709 [(63, 12, 90673), (64, 12, 90674), (65, 12, 90675), (66, 12, 90929), (67, 12, 90930), (68, 12, 90931), (69, 12, 90417), (70, 12, 90418), (71, 12, 90419)] (.node 5392130354 [(203, 41, 1)] names1 names2) (.node 5523008866 [(223, 46, 23290210)] names3 names4)) (.node 5643660641 [(265, 55, 23225185)] (.node 5640707893 [(464, 170, 1)] names5 names6) (.node 5644378478 [(250, 52, 5925331810)] names7 names8))) (.node 90389086228062317 [(196, 39, 5925331810)] (.node 369652252369761 [(146, 29, 5056455265)] (.node 1444957467502 [(518, 222, 305), (519, 222, 306)] names9 names10) (.node 369669432357426 [(476, 182, 1)] names11 names12)) (.node 91796242071560292 [(213, 43, 23290210)] (.node 90670595567853618 [(192, 39, 5945503075)] names13 names14) (.node 92640877451747377 [(53, 9, 90419)] names15 names16)))) (.node 1554252498348376227589427 [(502, 206, 1)] (.node 24220413975274204467 [(494, 200, 1)] (.node 94611245241671777 [(271, 57, 23290210)] (.node 94611197997686893 [(241, 51, 23290210)] names17 names18) (.node 23499832557521018979 [(515, 219, 1)] names19 names20)) (.node 6200425679444847517489 [(7, 4, 355)] (.node 5942171543893242355762 [(118, 20, 23225185)] names21 names22) (.node 6200426593139010183218 [(368, 91, 1)] names23 names24))) (.node 6675464269102589554890579870101348 [(530, 230, 1)] (.node 25600719848321109229542149529649 [(55, 9, 19751218)] (.node 406351157208256396720480365 [(416, 134, 305), (417, 134, 306)] names25 names26) (.node 26630626723641388441816341225522 [(4, 3, 355)] names27 names28)) (.node 109954000388090266250921608547115746795569 [(71, 12, 90419)] (.node 1745264772443681727817918192924372845 [(254, 53, 5056455265)] names29 names30) (.node 114377672126869139012459098793238724685666 [(287, 60, 5056455265)] names31 names32))))

def halls1 : Tree (Nat) := .node 5055193139 [435] (.node 22028342 [462] (.node 22028337 [1] (.node 21569586 [14] (.node 21110834 [13] (.node 21045298 [12] .leaf .leaf) .leaf) (.node 21569588 [353] .leaf .leaf)) (.node 22028339 [430] (.node 22028338 [4] .leaf .leaf) (.node 22028340 [349] .leaf .leaf))) (.node 5054734386 [68] (.node 5054210098 [66] (.node 22159411 [433] .leaf .leaf) (.node 5054275634 [67] .leaf .leaf)) (.node 5055193137 [2] (.node 5054734388 [363] .leaf .leaf) (.node 5055193138 [58] .leaf .leaf)))) (.node 5421150840 [16] (.node 5387595058 [33] (.node 5055193142 [469] (.node 5055193140 [357] .leaf .leaf) (.node 5055324211 [436] .leaf .leaf)) (.node 5404372274 [34] (.node 5387596409 [10] .leaf .leaf) (.node 5404373624 [15] .leaf .leaf))) (.node 5521814136 [17] (.node 5521812786 [35] (.node 5421150841 [9] .leaf .leaf) (.node 5521812788 [356] .leaf .leaf)) (.node 5639253298 [19] (.node 5521814137 [11] .leaf .leaf) (.node 5639253300 [355] .leaf .leaf))))

def halls2 : Tree (Nat) := .node 1293894562424 [69] (.node 5639255601 [463] (.node 5639254833 [431] (.node 5639254649 [3] (.node 5639254648 [5] (.node 5639254627 [7] .leaf .leaf) .leaf) (.node 5639254826 [434] .leaf .leaf)) (.node 5639255139 [351] (.node 5639254834 [432] .leaf .leaf) (.node 5639255159 [350] .leaf .leaf))) (.node 5639255651 [467] (.node 5639255604 [466] (.node 5639255602 [465] .leaf .leaf) (.node 5639255605 [464] .leaf .leaf)) (.node 1293877785209 [64] (.node 1293877785185 [96] .leaf .leaf) (.node 1293894562402 [99] .leaf .leaf)))) (.node 1294129443426 [77] (.node 1294012002914 [98] (.node 1293911339641 [63] (.node 1293911339640 [70] .leaf .leaf) (.node 1294012002913 [101] .leaf .leaf)) (.node 1294012002937 [65] (.node 1294012002936 [71] .leaf .leaf) (.node 1294129443425 [75] .leaf .leaf))) (.node 1294129443449 [57] (.node 1294129443438 [85] (.node 1294129443427 [61] .leaf .leaf) (.node 1294129443448 [59] .leaf .leaf)) (.node 1294129443937 [360] (.node 1294129443626 [437] .leaf .leaf) (.node 1294129443939 [358] .leaf .leaf))))

def halls3 : Tree (Nat) := .node 1413584544375 [354] (.node 1387814592562 [119] (.node 1383519302264 [36] (.node 1379224657970 [120] (.node 1379224334969 [31] (.node 1379224334945 [45] .leaf .leaf) .leaf) (.node 1383519302242 [48] .leaf .leaf)) (.node 1387814269560 [37] (.node 1383519625266 [121] .leaf .leaf) (.node 1387814269561 [30] .leaf .leaf))) (.node 1413584073336 [38] (.node 1413584073313 [50] (.node 1400699494450 [122] .leaf .leaf) (.node 1413584073314 [47] .leaf .leaf)) (.node 1413584396338 [123] (.node 1413584073337 [32] .leaf .leaf) (.node 1413584527410 [374] .leaf .leaf)))) (.node 1443649232946 [438] (.node 1443648844409 [18] (.node 1443648844386 [26] (.node 1443648844385 [24] .leaf .leaf) (.node 1443648844408 [20] .leaf .leaf)) (.node 1443649189985 [8] (.node 1443649167410 [108] .leaf .leaf) (.node 1443649190242 [6] .leaf .leaf))) (.node 331232712990770 [311] (.node 1443649315703 [352] (.node 1443649298482 [366] .leaf .leaf) (.node 1443649429554 [471] .leaf .leaf)) (.node 331232713013601 [93] (.node 331232713007459 [100] .leaf .leaf) (.node 331237007958066 [312] .leaf .leaf))))

def halls4 : Tree (Nat) := .node 331297137522785 [62] (.node 331267072751969 [92] (.node 331254187827250 [334] (.node 331241302947939 [105] (.node 331241302925362 [310] (.node 331237007980642 [102] .leaf .leaf) .leaf) (.node 331241302948195 [90] .leaf .leaf)) (.node 331267072751714 [107] (.node 331267072729138 [337] .leaf .leaf) (.node 331267072751715 [104] .leaf .leaf))) (.node 331297137500210 [227] (.node 331267072860210 [424] (.node 331267072751971 [95] .leaf .leaf) (.node 331267072876900 [365] .leaf .leaf)) (.node 331297137516899 [84] (.node 331297137516898 [76] .leaf .leaf) (.node 331297137517155 [86] .leaf .leaf)))) (.node 331297137565746 [454] (.node 331297137523041 [74] (.node 331297137522787 [80] (.node 331297137522786 [78] .leaf .leaf) (.node 331297137522798 [88] .leaf .leaf)) (.node 331297137523043 [72] (.node 331297137523042 [60] .leaf .leaf) (.node 331297137523054 [82] .leaf .leaf))) (.node 353081429729330 [174] (.node 331297137648227 [362] (.node 331297137631282 [400] .leaf .leaf) (.node 331297137762354 [485] .leaf .leaf)) (.node 353081429752161 [42] (.node 353081429746019 [49] .leaf .leaf) (.node 353081512439090 [185] .leaf .leaf))))

def halls5 : Tree (Nat) := .node 361877522882610 [398] (.node 355280540082226 [116] (.node 355280452984882 [188] (.node 354181024066866 [186] (.node 354180941379682 [51] (.node 354180941374051 [46] .leaf .leaf) .leaf) (.node 354181024068194 [118] .leaf .leaf)) (.node 355280453007715 [39] (.node 355280453007459 [54] .leaf .leaf) (.node 355280535694642 [173] .leaf .leaf))) (.node 361877522774114 [56] (.node 358579070577970 [209] (.node 358578987868210 [210] .leaf .leaf) (.node 361877522751538 [216] .leaf .leaf)) (.node 361877522774369 [41] (.node 361877522774115 [53] .leaf .leaf) (.node 361877522774371 [44] .leaf .leaf)))) (.node 369574104168803 [21] (.node 369574104162658 [25] (.node 361877639015730 [384] (.node 361877605461298 [215] .leaf .leaf) (.node 369574104145970 [126] .leaf .leaf)) (.node 369574104168547 [29] (.node 369574104168546 [27] .leaf .leaf) (.node 369574104168801 [23] .leaf .leaf))) (.node 369574186857058 [111] (.node 369574104408114 [481] (.node 369574104277042 [388] .leaf .leaf) (.node 369574186855730 [125] .leaf .leaf)) (.node 369574203632946 [447] (.node 369574191243314 [109] .leaf .leaf) (.node 369574203634210 [439] .leaf .leaf))))

def halls6 : Tree (Nat) := .node 84797773554672227 [103] (.node 84796674037264994 [302] (.node 84795574525637217 [301] (.node 369574253964594 [477] (.node 369574224797746 [370] (.node 369574220410162 [376] .leaf .leaf) .leaf) (.node 371773226889762 [444] .leaf .leaf)) (.node 84795574529892402 [314] (.node 84795574525637219 [319] .leaf .leaf) (.node 84795574531481955 [91] .leaf .leaf))) (.node 84796674043044451 [106] (.node 84796674041585714 [303] (.node 84796674037264995 [320] .leaf .leaf) (.node 84796674041651250 [321] .leaf .leaf)) (.node 84797773553213490 [316] (.node 84797773548892771 [313] .leaf .leaf) (.node 84797773553279026 [298] .leaf .leaf)))) (.node 84804370652213859 [425] (.node 84804370618659427 [338] (.node 84804370618659425 [347] (.node 84797773554737763 [94] .leaf .leaf) (.node 84804370618659426 [346] .leaf .leaf)) (.node 84804370622980146 [343] (.node 84804370622914610 [339] .leaf .leaf) (.node 84804370623045682 [348] .leaf .leaf))) (.node 84812067200053870 [275] (.node 84812067200053858 [241] (.node 84812067200053857 [244] .leaf .leaf) (.node 84812067200053859 [230] .leaf .leaf)) (.node 84812067204374578 [240] (.node 84812067204309042 [231] .leaf .leaf) (.node 84812067204440114 [243] .leaf .leaf))))

def halls7 : Tree (Nat) := .node 90388846010708577 [179] (.node 84812067217481778 [459] (.node 84812067205898595 [73] (.node 84812067205833315 [79] (.node 84812067205833059 [89] (.node 84812067205833058 [87] .leaf .leaf) .leaf) (.node 84812067205898594 [83] .leaf .leaf)) (.node 84812067216831010 [456] (.node 84812067205898851 [81] .leaf .leaf) (.node 84812067216831075 [455] .leaf .leaf))) (.node 84812067267162723 [486] (.node 84812067233608302 [407] (.node 84812067233608291 [401] .leaf .leaf) (.node 84812067237994546 [412] .leaf .leaf)) (.node 84814266240086562 [458] (.node 84812067271548978 [487] .leaf .leaf) (.node 90388846010707250 [190] .leaf .leaf)))) (.node 90670320991805490 [193] (.node 90388867184407139 [191] (.node 90388846016553315 [40] (.node 90388846014963762 [183] .leaf .leaf) (.node 90388867184407137 [197] .leaf .leaf)) (.node 90670320987417906 [175] (.node 90388868274074209 [117] .leaf .leaf) (.node 90670320991739954 [199] .leaf .leaf))) (.node 90951795964128562 [189] (.node 90670342161117794 [198] (.node 90670320993198691 [55] .leaf .leaf) (.node 90670342161117795 [192] .leaf .leaf)) (.node 90951795968516146 [200] (.node 90951795968450610 [194] .leaf .leaf) (.node 90951795969909347 [52] .leaf .leaf))))

def halls8 : Tree (Nat) := .node 92640668104536675 [124] (.node 92640645828649010 [219] (.node 91796242067960420 [212] (.node 91796220894260530 [211] (.node 90951818261048626 [176] (.node 90951817137828451 [182] .leaf .leaf) .leaf) (.node 91796220898713650 [213] .leaf .leaf)) (.node 91796250658218035 [505] (.node 91796242068283443 [490] .leaf .leaf) (.node 92640645824392498 [217] .leaf .leaf))) (.node 92640666998092385 [221] (.node 92640645828780082 [224] (.node 92640645828714546 [223] .leaf .leaf) (.node 92640645857946930 [396] .leaf .leaf)) (.node 92640666998092387 [218] (.node 92640666998092386 [222] .leaf .leaf) (.node 92640666998415411 [491] .leaf .leaf)))) (.node 94610970666475570 [171] (.node 94610970661368417 [131] (.node 92640675588350003 [507] (.node 92640675588026979 [385] .leaf .leaf) (.node 94610970661367090 [127] .leaf .leaf)) (.node 94610970665689138 [139] (.node 94610970665623602 [135] .leaf .leaf) (.node 94610970665754674 [140] .leaf .leaf))) (.node 94610970694922851 [389] (.node 94610970667213155 [22] (.node 94610970667147875 [28] .leaf .leaf) (.node 94610970694921522 [392] .leaf .leaf)) (.node 94610970728475954 [483] (.node 94610970694922862 [391] .leaf .leaf) (.node 94610970732863538 [482] .leaf .leaf))))

def halls9 : Tree (Nat) := .node 94611001548221746 [382] (.node 94610996130034210 [446] (.node 94610991835406690 [112] (.node 94610991835066990 [170] (.node 94610991835066979 [134] (.node 94610991835066978 [138] .leaf .leaf) .leaf) (.node 94610991835390003 [489] .leaf .leaf)) (.node 94610992945897522 [113] (.node 94610992924734049 [110] .leaf .leaf) (.node 94610992958287154 [128] .leaf .leaf))) (.node 94610996431172130 [443] (.node 94610996296953138 [451] (.node 94610996130034275 [449] .leaf .leaf) (.node 94610996414394914 [441] .leaf .leaf)) (.node 94611000425001582 [381] (.node 94611000425001571 [380] .leaf .leaf) (.node 94611000425324595 [503] .leaf .leaf)))) (.node 21707667079652455009 [300] (.node 94611010138156338 [479] (.node 94611001883767395 [368] (.node 94611001732772462 [371] .leaf .leaf) (.node 94611009014936163 [478] .leaf .leaf)) (.node 95173946083455522 [450] (.node 94611010138157667 [476] .leaf .leaf) (.node 21707667078563127651 [307] .leaf .leaf))) (.node 21707948554645942882 [315] (.node 21707667079686009443 [318] (.node 21707667079652455011 [327] .leaf .leaf) (.node 21707948553539838563 [308] .leaf .leaf)) (.node 21708230029622653538 [317] (.node 21707948554650329138 [309] .leaf .leaf) (.node 21708230029622653539 [325] .leaf .leaf))))

def halls10 : Tree (Nat) := .node 21711889204303114850 [259] (.node 21709918879499694691 [345] (.node 21709918879466140257 [344] (.node 21709074462036598835 [523] (.node 21709074453446664243 [497] (.node 21708230029639430755 [299] .leaf .leaf) .leaf) (.node 21709918878376796211 [500] .leaf .leaf)) (.node 21709918879482917474 [340] (.node 21709918879466140258 [342] .leaf .leaf) (.node 21709918879482917475 [341] .leaf .leaf))) (.node 21711889203213787490 [263] (.node 21709918888077303858 [427] (.node 21709918886966730803 [529] .leaf .leaf) (.node 21711889203213770803 [494] .leaf .leaf)) (.node 21711889203213787747 [255] (.node 21711889203213787491 [254] .leaf .leaf) (.node 21711889204303114849 [239] .leaf .leaf)))) (.node 21711889204319892078 [246] (.node 21711889204307501106 [251] (.node 21711889204303114862 [286] (.node 21711889204303114851 [238] .leaf .leaf) (.node 21711889204307435570 [256] .leaf .leaf)) (.node 21711889204319892066 [232] (.node 21711889204319892065 [272] .leaf .leaf) (.node 21711889204319892067 [258] .leaf .leaf))) (.node 21711889204336669283 [242] (.node 21711889204336669281 [283] (.node 21711889204324278322 [264] .leaf .leaf) (.node 21711889204336669282 [269] .leaf .leaf)) (.node 21711889204521218657 [296] (.node 21711889204336669294 [297] .leaf .leaf) (.node 21711889204521218658 [247] .leaf .leaf))))

def halls11 : Tree (Nat) := .node 23211607593246155363 [204] (.node 21711889213111153262 [419] (.node 21711889211803722082 [406] (.node 21711889207675335278 [461] (.node 21711889207508738659 [457] (.node 21711889204521218670 [277] .leaf .leaf) .leaf) (.node 21711889211803705395 [517] .leaf .leaf)) (.node 21711889212893049442 [403] (.node 21711889212893049441 [409] .leaf .leaf) (.node 21711889212926603875 [413] .leaf .leaf))) (.node 23139549999208227171 [203] (.node 21712452157462159971 [460] (.node 21711889221516538467 [488] .leaf .leaf) (.node 23139544579830723169 [178] .leaf .leaf)) (.node 23211602173885426994 [181] (.node 23211602172778984034 [180] .leaf .leaf) (.node 23211602173889814578 [205] .leaf .leaf)))) (.node 23716013235243068722 [386] (.node 23499840460260778035 [506] (.node 23283665474828448355 [177] (.node 23283659767927742514 [206] .leaf .leaf) (.node 23499832557520953395 [512] .leaf .leaf)) (.node 23716005339634737203 [513] (.node 23716005339634414179 [397] .leaf .leaf) (.node 23716005339634754167 [399] .leaf .leaf))) (.node 24220408490403962930 [152] (.node 24220408489310314851 [158] (.node 24220408489309975138 [132] .leaf .leaf) (.node 24220408490399642209 [130] .leaf .leaf)) (.node 24220408490416418098 [133] (.node 24220408490404028466 [151] .leaf .leaf) (.node 24220408490416419425 [145] .leaf .leaf))))

def halls12 : Tree (Nat) := .node 24220416397803532899 [372] (.node 24220414189854797106 [155] (.node 24220408497900249442 [390] (.node 24220408497899909742 [395] (.node 24220408497899909731 [393] (.node 24220408490617746017 [167] .leaf .leaf) .leaf) (.node 24220408497900232755 [511] .leaf .leaf)) (.node 24220413909777146211 [150] (.node 24220413909777146210 [161] .leaf .leaf) (.node 24220413909777146467 [149] .leaf .leaf))) (.node 24220415009288757859 [448] (.node 24220414197321511523 [129] (.node 24220414197321511522 [144] .leaf .leaf) (.node 24220414197321511534 [164] .leaf .leaf)) (.node 24220416108800401762 [377] (.node 24220415052020003438 [453] .leaf .leaf) (.node 24220416396344767075 [378] .leaf .leaf)))) (.node 5557234829990484259426 [331] (.node 24220418595368022627 [480] (.node 24220416443589407342 [379] (.node 24220416443589407086 [361] .leaf .leaf) (.node 24220416443589730355 [504] .leaf .leaf)) (.node 5557162772392151364195 [329] (.node 24364530197364613731 [452] .leaf .leaf) (.node 5557234829989361377891 [333] .leaf .leaf))) (.node 5558243636301597401442 [273] (.node 5557523062568831295539 [524] (.node 5557306887583399305827 [323] .leaf .leaf) (.node 5557739235347789787747 [429] .leaf .leaf)) (.node 5558243636301597401699 [245] (.node 5558243636301597401443 [257] .leaf .leaf) (.node 5558243636302703506017 [279] .leaf .leaf))))

def halls13 : Tree (Nat) := .node 5558243636357431976290 [284] (.node 5558243636305892368995 [236] (.node 5558243636302720283235 [260] (.node 5558243636302720283233 [271] (.node 5558243636302703506030 [249] (.node 5558243636302703506019 [248] .leaf .leaf) .leaf) (.node 5558243636302720283234 [288] .leaf .leaf)) (.node 5558243636305892368738 [262] (.node 5558243636302720283246 [292] .leaf .leaf) (.node 5558243636305892368739 [289] .leaf .leaf))) (.node 5558243636307015250542 [287] (.node 5558243636307015250530 [261] (.node 5558243636307015250529 [293] .leaf .leaf) (.node 5558243636307015250531 [274] .leaf .leaf)) (.node 5558243636310187336035 [270] (.node 5558243636310187336034 [294] .leaf .leaf) (.node 5558243636310187336291 [281] .leaf .leaf)))) (.node 5558243638556455215155 [520] (.node 5558243638500620657251 [405] (.node 5558243636357431976547 [250] (.node 5558243636357431976291 [295] .leaf .leaf) (.node 5558243638500620656995 [411] .leaf .leaf)) (.node 5558243638501743538786 [415] (.node 5558243638501743538785 [421] .leaf .leaf) (.node 5558243638509210591586 [418] .leaf .leaf))) (.node 5960616900588378862178 [195] (.node 5923723412445254726243 [196] (.node 5923723412436664791649 [202] .leaf .leaf) (.node 5942170156514669310562 [184] .leaf .leaf)) (.node 6015957132818097451620 [214] (.node 5960616900592673829475 [201] .leaf .leaf) (.node 6015957135012826062899 [515] .leaf .leaf))))

def halls14 : Tree (Nat) := .node 6200424577948944511587 [484] (.node 6200424573543414508850 [160] (.node 6071299388222225592931 [387] (.node 6071297365034931139171 [225] (.node 6071297365030636171874 [220] (.node 6071297365026341204577 [226] .leaf .leaf) .leaf) (.node 6071298824898915541043 [493] .leaf .leaf)) (.node 6200424573263353635427 [159] (.node 6071299388222225932919 [375] .leaf .leaf) (.node 6200424573542308065889 [142] .leaf .leaf))) (.node 6200424573550898000483 [141] (.node 6200424573546603033186 [136] (.node 6200424573543431287393 [146] .leaf .leaf) (.node 6200424573547726254689 [166] .leaf .leaf)) (.node 6200424575462376890722 [394] (.node 6200424573598142640750 [172] .leaf .leaf) (.node 6200424575797166219315 [514] .leaf .leaf)))) (.node 6200426597464260370786 [383] (.node 6200426034514306949474 [165] (.node 6200426032602828398946 [115] (.node 6200425960924118856046 [228] .leaf .leaf) (.node 6200426032602828398947 [114] .leaf .leaf)) (.node 6200426523874072277358 [404] (.node 6200426034514306949475 [143] .leaf .leaf) (.node 6200426595548486852962 [367] .leaf .leaf))) (.node 1422781243685792479649843 [502] (.node 1422670563221637679964771 [305] (.node 1422633669732390749233507 [306] .leaf .leaf) (.node 1422725903474831133931127 [336] .leaf .leaf)) (.node 1422910370893492097540451 [266] (.node 1422910370893492097540450 [253] .leaf .leaf) (.node 1422910370893492097540707 [229] .leaf .leaf))))

def halls15 : Tree (Nat) := .node 1587308690841124516028771 [168] (.node 1521195915236399394153059 [330, 332] (.node 1422910370894595904135779 [252] (.node 1422910370894595904135522 [268] (.node 1422910370893496392508003 [267] (.node 1422910370893496392507747 [265] .leaf .leaf) .leaf) (.node 1422910370894595904135523 [291] .leaf .leaf)) (.node 1422910371456446345929315 [417] (.node 1422910371456446345929059 [423] .leaf .leaf) (.node 1516473548753529748939107 [326, 328] .leaf .leaf))) (.node 1587308690826830864867682 [148] (.node 1554252643363999117942835 [510] (.node 1525918281719269039366755 [322, 324] .leaf .leaf) (.node 1554252643384889751724663 [364] .leaf .leaf)) (.node 1587308690827118409233006 [169] (.node 1587308690827114114605410 [157] .leaf .leaf) (.node 1587308690828217920860771 [147] .leaf .leaf)))) (.node 1587309212047096568164718 [416] (.node 1587309064627798959874659 [156] (.node 1587309045996574427144547 [237] (.node 1587309045996574427144546 [233] .leaf .leaf) (.node 1587309045996574427144803 [235] .leaf .leaf)) (.node 1587309208460412547326306 [359] (.node 1587309190111762503000418 [402] .leaf .leaf) (.node 1587309208460785991446135 [369] .leaf .leaf))) (.node 388217137557522875143053667 [208] (.node 364231998527752751529795635 [530] (.node 1587309212142677075780215 [373] .leaf .leaf) (.node 364265055092776675393609779 [519] .leaf .leaf)) (.node 394261857578976787083112804 [498] (.node 390634989197033608469176931 [207] .leaf .leaf) (.node 397888544258837671191978035 [516] .leaf .leaf))))

def halls16 : Tree (Nat) := .node 104025896285752780304674857011 [508] (.node 93239764810126533193310347315 [499] (.node 406351152668611226249277806 [518] (.node 406351115775123078830174574 [495] (.node 406351024852023787740357219 [154] (.node 406351024851742312763646307 [163] .leaf .leaf) .leaf) (.node 406351120472658961953333299 [492] .leaf .leaf)) (.node 406351158284057008994595182 [414] (.node 406351157438486178387075123 [509] .leaf .leaf) (.node 406351158284057056239235438 [420] .leaf .leaf))) (.node 93251854103841725320861524019 [522] (.node 93251854066875898104427782195 [496] (.node 93239764847092360409744089139 [526] .leaf .leaf) (.node 93251854066876179579387650099 [501] .leaf .leaf)) (.node 104025885638449855731057385826 [278] (.node 100931046238037629292379976036 [525] .leaf .leaf) (.node 104025886859447438053701935715 [280] .leaf .leaf)))) (.node 6817440520011821499027954091516259 [282] (.node 25838347836937633098849273865060 [527] (.node 104025896520718592386842571118 [422] (.node 104025896520718520716723302766 [521] .leaf .leaf) (.node 23869379800505108538139663081523 [528] .leaf .leaf)) (.node 6675464273059652598044473093612151 [428] (.node 26630629449129370229768692261218 [410] .leaf .leaf) (.node 6675464273059652598325948070322807 [426] .leaf .leaf))) (.node 1745265075099482525903423423573209385 [472] (.node 6817441704443056895268764447158569 [473] (.node 6817441138977118775234122384236898 [408] .leaf .leaf) (.node 1745264837414996218463568553098359081 [440] .leaf .leaf)) (.node 446787798457467194440937887186723615017 [442] (.node 1745265075408968771077926402454991145 [474] .leaf .leaf) (.node 446787859463152330424477834215565373737 [475] .leaf .leaf))))

def hallsTree : Tree (Nat) := .node 94610991835066977 [137] (.node 354180941357106 [187] (.node 1294129444451 [470] (.node 5639253302 [468] halls1 halls2) (.node 331237007975011 [97] halls3 halls4)) (.node 84812067205161010 [276] (.node 369574204284978 [445] halls5 halls6) (.node 90951795969974883 [43] halls7 halls8))) (.node 5558243636302703506018 [234] (.node 21711889204521218659 [285] (.node 21708230029627039794 [304] halls9 halls10) (.node 24220408490420805682 [162] halls11 halls12)) (.node 1422910370893496392507746 [290] (.node 6015958520187023339876 [335] halls13 halls14) (.node 406351024851741213252018530 [153] halls15 halls16)))

def nums1 : Tree (Nat × String) := .node 15 [(5, "C2h^6")] (.node 8 [(4, "Cs^3")] (.node 4 [(3, "C2^2")] (.node 2 [(2, "Ci^1")] (.node 1 [(1, "C1^1")] .leaf .leaf) (.node 3 [(3, "C2^1")] .leaf .leaf)) (.node 6 [(4, "Cs^1")] (.node 5 [(3, "C2^3")] .leaf .leaf) (.node 7 [(4, "Cs^2")] .leaf .leaf))) (.node 12 [(5, "C2h^3")] (.node 10 [(5, "C2h^1")] (.node 9 [(4, "Cs^4")] .leaf .leaf) (.node 11 [(5, "C2h^2")] .leaf .leaf)) (.node 14 [(5, "C2h^5")] (.node 13 [(5, "C2h^4")] .leaf .leaf) .leaf))) (.node 22 [(6, "D2^7")] (.node 19 [(6, "D2^4")] (.node 17 [(6, "D2^2")] (.node 16 [(6, "D2^1")] .leaf .leaf) (.node 18 [(6, "D2^3")] .leaf .leaf)) (.node 21 [(6, "D2^6")] (.node 20 [(6, "D2^5")] .leaf .leaf) .leaf)) (.node 26 [(7, "C2v^2")] (.node 24 [(6, "D2^9")] (.node 23 [(6, "D2^8")] .leaf .leaf) (.node 25 [(7, "C2v^1")] .leaf .leaf)) (.node 28 [(7, "C2v^4")] (.node 27 [(7, "C2v^3")] .leaf .leaf) .leaf)))

def nums2 : Tree (Nat × String) := .node 44 [(7, "C2v^20")] (.node 37 [(7, "C2v^13")] (.node 33 [(7, "C2v^9")] (.node 31 [(7, "C2v^7")] (.node 30 [(7, "C2v^6")] .leaf .leaf) (.node 32 [(7, "C2v^8")] .leaf .leaf)) (.node 35 [(7, "C2v^11")] (.node 34 [(7, "C2v^10")] .leaf .leaf) (.node 36 [(7, "C2v^12")] .leaf .leaf))) (.node 41 [(7, "C2v^17")] (.node 39 [(7, "C2v^15")] (.node 38 [(7, "C2v^14")] .leaf .leaf) (.node 40 [(7, "C2v^16")] .leaf .leaf)) (.node 43 [(7, "C2v^19")] (.node 42 [(7, "C2v^18")] .leaf .leaf) .leaf))) (.node 51 [(8, "D2h^5")] (.node 48 [(8, "D2h^2")] (.node 46 [(7, "C2v^22")] (.node 45 [(7, "C2v^21")] .leaf .leaf) (.node 47 [(8, "D2h^1")] .leaf .leaf)) (.node 50 [(8, "D2h^4")] (.node 49 [(8, "D2h^3")] .leaf .leaf) .leaf)) (.node 55 [(8, "D2h^9")] (.node 53 [(8, "D2h^7")] (.node 52 [(8, "D2h^6")] .leaf .leaf) (.node 54 [(8, "D2h^8")] .leaf .leaf)) (.node 57 [(8, "D2h^11")] (.node 56 [(8, "D2h^10")] .leaf .leaf) .leaf)))

def nums3 : Tree (Nat × String) := .node 73 [(8, "D2h^27")] (.node 66 [(8, "D2h^20")] (.node 62 [(8, "D2h^16")] (.node 60 [(8, "D2h^14")] (.node 59 [(8, "D2h^13")] .leaf .leaf) (.node 61 [(8, "D2h^15")] .leaf .leaf)) (.node 64 [(8, "D2h^18")] (.node 63 [(8, "D2h^17")] .leaf .leaf) (.node 65 [(8, "D2h^19")] .leaf .leaf))) (.node 70 [(8, "D2h^24")] (.node 68 [(8, "D2h^22")] (.node 67 [(8, "D2h^21")] .leaf .leaf) (.node 69 [(8, "D2h^23")] .leaf .leaf)) (.node 72 [(8, "D2h^26")] (.node 71 [(8, "D2h^25")] .leaf .leaf) .leaf))) (.node 80 [(9, "C4^6")] (.node 77 [(9, "C4^3")] (.node 75 [(9, "C4^1")] (.node 74 [(8, "D2h^28")] .leaf .leaf) (.node 76 [(9, "C4^2")] .leaf .leaf)) (.node 79 [(9, "C4^5")] (.node 78 [(9, "C4^4")] .leaf .leaf) .leaf)) (.node 84 [(11, "C4h^2")] (.node 82 [(10, "S4^2")] (.node 81 [(10, "S4^1")] .leaf .leaf) (.node 83 [(11, "C4h^1")] .leaf .leaf)) (.node 86 [(11, "C4h^4")] (.node 85 [(11, "C4h^3")] .leaf .leaf) .leaf)))

def nums4 : Tree (Nat × String) := .node 102 [(13, "C4v^4")] (.node 95 [(12, "D4^7")] (.node 91 [(12, "D4^3")] (.node 89 [(12, "D4^1")] (.node 88 [(11, "C4h^6")] .leaf .leaf) (.node 90 [(12, "D4^2")] .leaf .leaf)) (.node 93 [(12, "D4^5")] (.node 92 [(12, "D4^4")] .leaf .leaf) (.node 94 [(12, "D4^6")] .leaf .leaf))) (.node 99 [(13, "C4v^1")] (.node 97 [(12, "D4^9")] (.node 96 [(12, "D4^8")] .leaf .leaf) (.node 98 [(12, "D4^10")] .leaf .leaf)) (.node 101 [(13, "C4v^3")] (.node 100 [(13, "C4v^2")] .leaf .leaf) .leaf))) (.node 109 [(13, "C4v^11")] (.node 106 [(13, "C4v^8")] (.node 104 [(13, "C4v^6")] (.node 103 [(13, "C4v^5")] .leaf .leaf) (.node 105 [(13, "C4v^7")] .leaf .leaf)) (.node 108 [(13, "C4v^10")] (.node 107 [(13, "C4v^9")] .leaf .leaf) .leaf)) (.node 113 [(14, "D2d^3")] (.node 111 [(14, "D2d^1")] (.node 110 [(13, "C4v^12")] .leaf .leaf) (.node 112 [(14, "D2d^2")] .leaf .leaf)) (.node 115 [(14, "D2d^5")] (.node 114 [(14, "D2d^4")] .leaf .leaf) .leaf)))

def nums5 : Tree (Nat × String) := .node 131 [(15, "D4h^9")] (.node 124 [(15, "D4h^2")] (.node 120 [(14, "D2d^10")] (.node 118 [(14, "D2d^8")] (.node 117 [(14, "D2d^7")] .leaf .leaf) (.node 119 [(14, "D2d^9")] .leaf .leaf)) (.node 122 [(14, "D2d^12")] (.node 121 [(14, "D2d^11")] .leaf .leaf) (.node 123 [(15, "D4h^1")] .leaf .leaf))) (.node 128 [(15, "D4h^6")] (.node 126 [(15, "D4h^4")] (.node 125 [(15, "D4h^3")] .leaf .leaf) (.node 127 [(15, "D4h^5")] .leaf .leaf)) (.node 130 [(15, "D4h^8")] (.node 129 [(15, "D4h^7")] .leaf .leaf) .leaf))) (.node 138 [(15, "D4h^16")] (.node 135 [(15, "D4h^13")] (.node 133 [(15, "D4h^11")] (.node 132 [(15, "D4h^10")] .leaf .leaf) (.node 134 [(15, "D4h^12")] .leaf .leaf)) (.node 137 [(15, "D4h^15")] (.node 136 [(15, "D4h^14")] .leaf .leaf) .leaf)) (.node 142 [(15, "D4h^20")] (.node 140 [(15, "D4h^18")] (.node 139 [(15, "D4h^17")] .leaf .leaf) (.node 141 [(15, "D4h^19")] .leaf .leaf)) (.node 144 [(16, "C3^2")] (.node 143 [(16, "C3^1")] .leaf .leaf) .leaf)))

def nums6 : Tree (Nat × String) := .node 160 [(19, "C3v^5")] (.node 153 [(18, "D3^5")] (.node 149 [(18, "D3^1")] (.node 147 [(17, "C3i^1")] (.node 146 [(16, "C3^4")] .leaf .leaf) (.node 148 [(17, "C3i^2")] .leaf .leaf)) (.node 151 [(18, "D3^3")] (.node 150 [(18, "D3^2")] .leaf .leaf) (.node 152 [(18, "D3^4")] .leaf .leaf))) (.node 157 [(19, "C3v^2")] (.node 155 [(18, "D3^7")] (.node 154 [(18, "D3^6")] .leaf .leaf) (.node 156 [(19, "C3v^1")] .leaf .leaf)) (.node 159 [(19, "C3v^4")] (.node 158 [(19, "C3v^3")] .leaf .leaf) .leaf))) (.node 167 [(20, "D3d^6")] (.node 164 [(20, "D3d^3")] (.node 162 [(20, "D3d^1")] (.node 161 [(19, "C3v^6")] .leaf .leaf) (.node 163 [(20, "D3d^2")] .leaf .leaf)) (.node 166 [(20, "D3d^5")] (.node 165 [(20, "D3d^4")] .leaf .leaf) .leaf)) (.node 171 [(21, "C6^4")] (.node 169 [(21, "C6^2")] (.node 168 [(21, "C6^1")] .leaf .leaf) (.node 170 [(21, "C6^3")] .leaf .leaf)) (.node 173 [(21, "C6^6")] (.node 172 [(21, "C6^5")] .leaf .leaf) .leaf)))

def nums7 : Tree (Nat × String) := .node 189 [(26, "D3h^3")] (.node 182 [(24, "D6^6")] (.node 178 [(24, "D6^2")] (.node 176 [(23, "C6h^2")] (.node 175 [(23, "C6h^1")] .leaf .leaf) (.node 177 [(24, "D6^1")] .leaf .leaf)) (.node 180 [(24, "D6^4")] (.node 179 [(24, "D6^3")] .leaf .leaf) (.node 181 [(24, "D6^5")] .leaf .leaf))) (.node 186 [(25, "C6v^4")] (.node 184 [(25, "C6v^2")] (.node 183 [(25, "C6v^1")] .leaf .leaf) (.node 185 [(25, "C6v^3")] .leaf .leaf)) (.node 188 [(26, "D3h^2")] (.node 187 [(26, "D3h^1")] .leaf .leaf) .leaf))) (.node 196 [(28, "T^2")] (.node 193 [(27, "D6h^3")] (.node 191 [(27, "D6h^1")] (.node 190 [(26, "D3h^4")] .leaf .leaf) (.node 192 [(27, "D6h^2")] .leaf .leaf)) (.node 195 [(28, "T^1")] (.node 194 [(27, "D6h^4")] .leaf .leaf) .leaf)) (.node 200 [(29, "Th^1")] (.node 198 [(28, "T^4")] (.node 197 [(28, "T^3")] .leaf .leaf) (.node 199 [(28, "T^5")] .leaf .leaf)) (.node 202 [(29, "Th^3")] (.node 201 [(29, "Th^2")] .leaf .leaf) .leaf)))

def nums8 : Tree (Nat × String) := .node 217 [(31, "Td^3")] (.node 210 [(30, "O^4")] (.node 207 [(30, "O^1")] (.node 205 [(29, "Th^6")] (.node 204 [(29, "Th^5")] .leaf .leaf) (.node 206 [(29, "Th^7")] .leaf .leaf)) (.node 209 [(30, "O^3")] (.node 208 [(30, "O^2")] .leaf .leaf) .leaf)) (.node 214 [(30, "O^8")] (.node 212 [(30, "O^6")] (.node 211 [(30, "O^5")] .leaf .leaf) (.node 213 [(30, "O^7")] .leaf .leaf)) (.node 216 [(31, "Td^2")] (.node 215 [(31, "Td^1")] .leaf .leaf) .leaf))) (.node 224 [(32, "Oh^4")] (.node 221 [(32, "Oh^1")] (.node 219 [(31, "Td^5")] (.node 218 [(31, "Td^4")] .leaf .leaf) (.node 220 [(31, "Td^6")] .leaf .leaf)) (.node 223 [(32, "Oh^3")] (.node 222 [(32, "Oh^2")] .leaf .leaf) .leaf)) (.node 228 [(32, "Oh^8")] (.node 226 [(32, "Oh^6")] (.node 225 [(32, "Oh^5")] .leaf .leaf) (.node 227 [(32, "Oh^7")] .leaf .leaf)) (.node 230 [(32, "Oh^10")] (.node 229 [(32, "Oh^9")] .leaf .leaf) .leaf)))

def numsTree : Tree (Nat × String) := .node 116 [(14, "D2d^6")] (.node 58 [(8, "D2h^12")] (.node 29 [(7, "C2v^5")] nums1 nums2) (.node 87 [(11, "C4h^5")] nums3 nums4)) (.node 174 [(22, "C3h^1")] (.node 145 [(16, "C3^3")] nums5 nums6) (.node 203 [(29, "Th^4")] nums7 nums8))

def schs1 : Tree (Nat) := .node 5422341681 [3] (.node 21978680 [214] (.node 21978676 [210] (.node 21978674 [208] (.node 21978673 [207] .leaf .leaf) (.node 21978675 [209] .leaf .leaf)) (.node 21978678 [212] (.node 21978677 [211] .leaf .leaf) (.node 21978679 [213] .leaf .leaf))) (.node 22306356 [198] (.node 22306354 [196] (.node 22306353 [195] .leaf .leaf) (.node 22306355 [197] .leaf .leaf)) (.node 5422276145 [1] (.node 22306357 [199] .leaf .leaf) .leaf))) (.node 5422472753 [75] (.node 5422407218 [144] (.node 5422341683 [5] (.node 5422341682 [4] .leaf .leaf) (.node 5422407217 [143] .leaf .leaf)) (.node 5422407220 [146] (.node 5422407219 [145] .leaf .leaf) .leaf)) (.node 5422472757 [79] (.node 5422472755 [77] (.node 5422472754 [76] .leaf .leaf) (.node 5422472756 [78] .leaf .leaf)) (.node 5422603825 [168] (.node 5422472758 [80] .leaf .leaf) .leaf)))

def schs2 : Tree (Nat) := .node 5439118902 [21] (.node 5426601523 [8] (.node 5422603830 [173] (.node 5422603828 [171] (.node 5422603827 [170] .leaf .leaf) (.node 5422603829 [172] .leaf .leaf)) (.node 5426601521 [6] (.node 5425946161 [2] .leaf .leaf) (.node 5426601522 [7] .leaf .leaf))) (.node 5439118899 [18] (.node 5439118897 [16] (.node 5426601524 [9] .leaf .leaf) (.node 5439118898 [17] .leaf .leaf)) (.node 5439118901 [20] (.node 5439118900 [19] .leaf .leaf) .leaf))) (.node 5439184436 [152] (.node 5439184433 [149] (.node 5439118904 [23] (.node 5439118903 [22] .leaf .leaf) (.node 5439118905 [24] .leaf .leaf)) (.node 5439184435 [151] (.node 5439184434 [150] .leaf .leaf) .leaf)) (.node 5439249969 [89] (.node 5439184438 [154] (.node 5439184437 [153] .leaf .leaf) (.node 5439184439 [155] .leaf .leaf)) (.node 5439249971 [91] (.node 5439249970 [90] .leaf .leaf) .leaf)))

def schs3 : Tree (Nat) := .node 5627207220 [224] (.node 5439381043 [179] (.node 5439249976 [96] (.node 5439249974 [94] (.node 5439249973 [93] .leaf .leaf) (.node 5439249975 [95] .leaf .leaf)) (.node 5439381041 [177] (.node 5439249977 [97] .leaf .leaf) (.node 5439381042 [178] .leaf .leaf))) (.node 5627207217 [221] (.node 5439381045 [181] (.node 5439381044 [180] .leaf .leaf) (.node 5439381046 [182] .leaf .leaf)) (.node 5627207219 [223] (.node 5627207218 [222] .leaf .leaf) .leaf))) (.node 5690908210 [82] (.node 5627207224 [228] (.node 5627207222 [226] (.node 5627207221 [225] .leaf .leaf) (.node 5627207223 [227] .leaf .leaf)) (.node 5690908209 [81] (.node 5627207225 [229] .leaf .leaf) .leaf)) (.node 5710831156 [218] (.node 5710831154 [216] (.node 5710831153 [215] .leaf .leaf) (.node 5710831155 [217] .leaf .leaf)) (.node 5710831158 [220] (.node 5710831157 [219] .leaf .leaf) .leaf)))

def schs4 : Tree (Nat) := .node 1388121054771 [27] (.node 1388120137266 [11] (.node 5711093301 [204] (.node 5711093299 [202] (.node 5711093298 [201] .leaf .leaf) (.node 5711093300 [203] .leaf .leaf)) (.node 5711093303 [206] (.node 5711093302 [205] .leaf .leaf) (.node 1388120137265 [10] .leaf .leaf))) (.node 1388120137270 [15] (.node 1388120137268 [13] (.node 1388120137267 [12] .leaf .leaf) (.node 1388120137269 [14] .leaf .leaf)) (.node 1388121054770 [26] (.node 1388121054769 [25] .leaf .leaf) .leaf))) (.node 1388136914481 [174] (.node 1388121054775 [31] (.node 1388121054773 [29] (.node 1388121054772 [28] .leaf .leaf) (.node 1388121054774 [30] .leaf .leaf)) (.node 1388121054777 [33] (.node 1388121054776 [32] .leaf .leaf) .leaf)) (.node 1388137831986 [157] (.node 1388136980018 [148] (.node 1388136980017 [147] .leaf .leaf) (.node 1388137831985 [156] .leaf .leaf)) (.node 1388137831988 [159] (.node 1388137831987 [158] .leaf .leaf) .leaf)))

def schs5 : Tree (Nat) := .node 1388154609208 [106] (.node 1388154609201 [99] (.node 1388153691699 [85] (.node 1388153691697 [83] (.node 1388137831990 [161] .leaf .leaf) (.node 1388153691698 [84] .leaf .leaf)) (.node 1388153691701 [87] (.node 1388153691700 [86] .leaf .leaf) (.node 1388153691702 [88] .leaf .leaf))) (.node 1388154609205 [103] (.node 1388154609203 [101] (.node 1388154609202 [100] .leaf .leaf) (.node 1388154609204 [102] .leaf .leaf)) (.node 1388154609207 [105] (.node 1388154609206 [104] .leaf .leaf) .leaf))) (.node 1388188163636 [186] (.node 1388188163633 [183] (.node 1388187246129 [175] (.node 1388154609209 [107] .leaf .leaf) (.node 1388187246130 [176] .leaf .leaf)) (.node 1388188163635 [185] (.node 1388188163634 [184] .leaf .leaf) .leaf)) (.node 1392414842420 [114] (.node 1392414842418 [112] (.node 1392414842417 [111] .leaf .leaf) (.node 1392414842419 [113] .leaf .leaf)) (.node 1392414842422 [116] (.node 1392414842421 [115] .leaf .leaf) .leaf)))

def schs6 : Tree (Nat) := .node 1392431619636 [165] (.node 1392415104566 [52] (.node 1392415104562 [48] (.node 1392414842425 [119] (.node 1392414842424 [118] .leaf .leaf) (.node 1392415104561 [47] .leaf .leaf)) (.node 1392415104564 [50] (.node 1392415104563 [49] .leaf .leaf) (.node 1392415104565 [51] .leaf .leaf))) (.node 1392431619633 [162] (.node 1392415104568 [54] (.node 1392415104567 [53] .leaf .leaf) (.node 1392415104569 [55] .leaf .leaf)) (.node 1392431619635 [164] (.node 1392431619634 [163] .leaf .leaf) .leaf))) (.node 1392447992112 [98] (.node 1392431881778 [188] (.node 1392431619638 [167] (.node 1392431619637 [166] .leaf .leaf) (.node 1392431881777 [187] .leaf .leaf)) (.node 1392431881780 [190] (.node 1392431881779 [189] .leaf .leaf) .leaf)) (.node 1392448658996 [126] (.node 1392448658994 [124] (.node 1392448658993 [123] .leaf .leaf) (.node 1392448658995 [125] .leaf .leaf)) (.node 1392448658998 [128] (.node 1392448658997 [127] .leaf .leaf) .leaf)))

def schs7 : Tree (Nat) := .node 355358990020919 [41] (.node 355358990020912 [34] (.node 1392482213426 [192] (.node 1392448659001 [131] (.node 1392448659000 [130] .leaf .leaf) (.node 1392482213425 [191] .leaf .leaf)) (.node 1392482213428 [194] (.node 1392482213427 [193] .leaf .leaf) (.node 1440565047600 [230] .leaf .leaf))) (.node 355358990020916 [38] (.node 355358990020914 [36] (.node 355358990020913 [35] .leaf .leaf) (.node 355358990020915 [37] .leaf .leaf)) (.node 355358990020918 [40] (.node 355358990020917 [39] .leaf .leaf) .leaf))) (.node 355367579955505 [109] (.node 355358990021169 [45] (.node 355358990020921 [43] (.node 355358990020920 [42] .leaf .leaf) (.node 355358990021168 [44] .leaf .leaf)) (.node 355367579955504 [108] (.node 355358990021170 [46] .leaf .leaf) .leaf)) (.node 356458199658802 [122] (.node 356458199658800 [120] (.node 355367579955506 [110] .leaf .leaf) (.node 356458199658801 [121] .leaf .leaf)) (.node 356458266767665 [57] (.node 356458266767664 [56] .leaf .leaf) .leaf)))

def schs8 : Tree (Nat) := .node 356458266767926 [72] (.node 356458266767673 [65] (.node 356458266767670 [62] (.node 356458266767668 [60] (.node 356458266767667 [59] .leaf .leaf) (.node 356458266767669 [61] .leaf .leaf)) (.node 356458266767672 [64] (.node 356458266767671 [63] .leaf .leaf) .leaf)) (.node 356458266767923 [69] (.node 356458266767921 [67] (.node 356458266767920 [66] .leaf .leaf) (.node 356458266767922 [68] .leaf .leaf)) (.node 356458266767925 [71] (.node 356458266767924 [70] .leaf .leaf) .leaf))) (.node 356466856702260 [136] (.node 356466856702257 [133] (.node 356458266767928 [74] (.node 356458266767927 [73] .leaf .leaf) (.node 356466856702256 [132] .leaf .leaf)) (.node 356466856702259 [135] (.node 356466856702258 [134] .leaf .leaf) .leaf)) (.node 356466856702264 [140] (.node 356466856702262 [138] (.node 356466856702261 [137] .leaf .leaf) (.node 356466856702263 [139] .leaf .leaf)) (.node 356466856702512 [142] (.node 356466856702265 [141] .leaf .leaf) .leaf)))

def schsTree : Tree (Nat) := .node 1388137831989 [160] (.node 5439249972 [92] (.node 5422603826 [169] schs1 schs2) (.node 5711093297 [200] schs3 schs4)) (.node 1392448658999 [129] (.node 1392414842423 [117] schs5 schs6) (.node 356458266767666 [58] schs7 schs8))

end Brille.Spg
