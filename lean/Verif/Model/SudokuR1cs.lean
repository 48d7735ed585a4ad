import Verif.Basic.Str
import Verif.Model.Sudoku
/-!
# The compiled Sudoku circuit — `packages/zkenc-cli/tests/r1cs/sudoku.r1cs` and `sudoku.sym`

GENERATED by `tools/gen_sudoku.py` (data only). The same two files are in `packages/zkenc-js/tests/fixtures` and `docs/static/circuits`.
-/

namespace Zkenc

/-- The constraints of `sudoku.r1cs` (section 2 of the file), coefficients as signed integers. -/
def sudokuTable : List IntCstr := [
  ⟨[(82, -1)], [(82, 1)], [(142, -1)]⟩,
  ⟨[(83, -1)], [(83, 1)], [(143, -1)]⟩,
  ⟨[(84, -1)], [(84, 1)], [(144, -1)]⟩,
  ⟨[(85, -1)], [(85, 1)], [(145, -1)]⟩,
  ⟨[(86, -1)], [(86, 1)], [(146, -1)]⟩,
  ⟨[(87, -1)], [(87, 1)], [(147, -1)]⟩,
  ⟨[(88, -1)], [(88, 1)], [(148, -1)]⟩,
  ⟨[(89, -1)], [(89, 1)], [(149, -1)]⟩,
  ⟨[(0, -45), (82, 1), (83, 1), (84, 1), (85, 1), (86, 1), (87, 1), (88, 1), (89, 1)], [(0, 45), (82, -1), (83, -1), (84, -1), (85, -1), (86, -1), (87, -1), (88, -1), (89, -1)], [(0, -285), (142, 1), (143, 1), (144, 1), (145, 1), (146, 1), (147, 1), (148, 1), (149, 1)]⟩,
  ⟨[(90, -1)], [(90, 1)], [(150, -1)]⟩,
  ⟨[(91, -1)], [(91, 1)], [(151, -1)]⟩,
  ⟨[(92, -1)], [(92, 1)], [(152, -1)]⟩,
  ⟨[(93, -1)], [(93, 1)], [(153, -1)]⟩,
  ⟨[(94, -1)], [(94, 1)], [(154, -1)]⟩,
  ⟨[(95, -1)], [(95, 1)], [(155, -1)]⟩,
  ⟨[(96, -1)], [(96, 1)], [(156, -1)]⟩,
  ⟨[(97, -1)], [(97, 1)], [(157, -1)]⟩,
  ⟨[(0, -45), (90, 1), (91, 1), (92, 1), (93, 1), (94, 1), (95, 1), (96, 1), (97, 1)], [(0, 45), (90, -1), (91, -1), (92, -1), (93, -1), (94, -1), (95, -1), (96, -1), (97, -1)], [(0, -285), (150, 1), (151, 1), (152, 1), (153, 1), (154, 1), (155, 1), (156, 1), (157, 1)]⟩,
  ⟨[(98, -1)], [(98, 1)], [(158, -1)]⟩,
  ⟨[(99, -1)], [(99, 1)], [(159, -1)]⟩,
  ⟨[(0, -45), (82, 1), (83, 1), (84, 1), (90, 1), (91, 1), (92, 1), (98, 1), (99, 1)], [(0, 45), (82, -1), (83, -1), (84, -1), (90, -1), (91, -1), (92, -1), (98, -1), (99, -1)], [(0, -285), (142, 1), (143, 1), (144, 1), (150, 1), (151, 1), (152, 1), (158, 1), (159, 1)]⟩,
  ⟨[(100, -1)], [(100, 1)], [(160, -1)]⟩,
  ⟨[(101, -1)], [(101, 1)], [(161, -1)]⟩,
  ⟨[(0, -45), (85, 1), (86, 1), (87, 1), (93, 1), (94, 1), (95, 1), (100, 1), (101, 1)], [(0, 45), (85, -1), (86, -1), (87, -1), (93, -1), (94, -1), (95, -1), (100, -1), (101, -1)], [(0, -285), (145, 1), (146, 1), (147, 1), (153, 1), (154, 1), (155, 1), (160, 1), (161, 1)]⟩,
  ⟨[(102, -1)], [(102, 1)], [(162, -1)]⟩,
  ⟨[(103, -1)], [(103, 1)], [(163, -1)]⟩,
  ⟨[(0, 45), (82, -1), (83, -1), (84, -1), (85, -1), (86, -1), (87, -1), (90, -1), (91, -1), (92, -1), (93, -1), (94, -1), (95, -1), (102, 1), (103, 1)], [(0, -45), (82, 1), (83, 1), (84, 1), (85, 1), (86, 1), (87, 1), (90, 1), (91, 1), (92, 1), (93, 1), (94, 1), (95, 1), (102, -1), (103, -1)], [(0, 285), (142, -1), (143, -1), (144, -1), (145, -1), (146, -1), (147, -1), (150, -1), (151, -1), (152, -1), (153, -1), (154, -1), (155, -1), (162, 1), (163, 1)]⟩,
  ⟨[(104, -1)], [(104, 1)], [(164, -1)]⟩,
  ⟨[(105, -1)], [(105, 1)], [(165, -1)]⟩,
  ⟨[(106, -1)], [(106, 1)], [(166, -1)]⟩,
  ⟨[(107, -1)], [(107, 1)], [(167, -1)]⟩,
  ⟨[(108, -1)], [(108, 1)], [(168, -1)]⟩,
  ⟨[(109, -1)], [(109, 1)], [(169, -1)]⟩,
  ⟨[(110, -1)], [(110, 1)], [(170, -1)]⟩,
  ⟨[(111, -1)], [(111, 1)], [(171, -1)]⟩,
  ⟨[(0, -45), (104, 1), (105, 1), (106, 1), (107, 1), (108, 1), (109, 1), (110, 1), (111, 1)], [(0, 45), (104, -1), (105, -1), (106, -1), (107, -1), (108, -1), (109, -1), (110, -1), (111, -1)], [(0, -285), (164, 1), (165, 1), (166, 1), (167, 1), (168, 1), (169, 1), (170, 1), (171, 1)]⟩,
  ⟨[(112, -1)], [(112, 1)], [(172, -1)]⟩,
  ⟨[(113, -1)], [(113, 1)], [(173, -1)]⟩,
  ⟨[(114, -1)], [(114, 1)], [(174, -1)]⟩,
  ⟨[(115, -1)], [(115, 1)], [(175, -1)]⟩,
  ⟨[(116, -1)], [(116, 1)], [(176, -1)]⟩,
  ⟨[(117, -1)], [(117, 1)], [(177, -1)]⟩,
  ⟨[(118, -1)], [(118, 1)], [(178, -1)]⟩,
  ⟨[(119, -1)], [(119, 1)], [(179, -1)]⟩,
  ⟨[(0, -45), (112, 1), (113, 1), (114, 1), (115, 1), (116, 1), (117, 1), (118, 1), (119, 1)], [(0, 45), (112, -1), (113, -1), (114, -1), (115, -1), (116, -1), (117, -1), (118, -1), (119, -1)], [(0, -285), (172, 1), (173, 1), (174, 1), (175, 1), (176, 1), (177, 1), (178, 1), (179, 1)]⟩,
  ⟨[(120, -1)], [(120, 1)], [(180, -1)]⟩,
  ⟨[(121, -1)], [(121, 1)], [(181, -1)]⟩,
  ⟨[(0, -45), (104, 1), (105, 1), (106, 1), (112, 1), (113, 1), (114, 1), (120, 1), (121, 1)], [(0, 45), (104, -1), (105, -1), (106, -1), (112, -1), (113, -1), (114, -1), (120, -1), (121, -1)], [(0, -285), (164, 1), (165, 1), (166, 1), (172, 1), (173, 1), (174, 1), (180, 1), (181, 1)]⟩,
  ⟨[(122, -1)], [(122, 1)], [(182, -1)]⟩,
  ⟨[(123, -1)], [(123, 1)], [(183, -1)]⟩,
  ⟨[(0, -45), (107, 1), (108, 1), (109, 1), (115, 1), (116, 1), (117, 1), (122, 1), (123, 1)], [(0, 45), (107, -1), (108, -1), (109, -1), (115, -1), (116, -1), (117, -1), (122, -1), (123, -1)], [(0, -285), (167, 1), (168, 1), (169, 1), (175, 1), (176, 1), (177, 1), (182, 1), (183, 1)]⟩,
  ⟨[(124, -1)], [(124, 1)], [(184, -1)]⟩,
  ⟨[(125, -1)], [(125, 1)], [(185, -1)]⟩,
  ⟨[(0, 45), (104, -1), (105, -1), (106, -1), (107, -1), (108, -1), (109, -1), (112, -1), (113, -1), (114, -1), (115, -1), (116, -1), (117, -1), (124, 1), (125, 1)], [(0, -45), (104, 1), (105, 1), (106, 1), (107, 1), (108, 1), (109, 1), (112, 1), (113, 1), (114, 1), (115, 1), (116, 1), (117, 1), (124, -1), (125, -1)], [(0, 285), (164, -1), (165, -1), (166, -1), (167, -1), (168, -1), (169, -1), (172, -1), (173, -1), (174, -1), (175, -1), (176, -1), (177, -1), (184, 1), (185, 1)]⟩,
  ⟨[(126, -1)], [(126, 1)], [(186, -1)]⟩,
  ⟨[(127, -1)], [(127, 1)], [(187, -1)]⟩,
  ⟨[(128, -1)], [(128, 1)], [(188, -1)]⟩,
  ⟨[(129, -1)], [(129, 1)], [(189, -1)]⟩,
  ⟨[(130, -1)], [(130, 1)], [(190, -1)]⟩,
  ⟨[(131, -1)], [(131, 1)], [(191, -1)]⟩,
  ⟨[(132, -1)], [(132, 1)], [(192, -1)]⟩,
  ⟨[(133, -1)], [(133, 1)], [(193, -1)]⟩,
  ⟨[(0, -45), (126, 1), (127, 1), (128, 1), (129, 1), (130, 1), (131, 1), (132, 1), (133, 1)], [(0, 45), (126, -1), (127, -1), (128, -1), (129, -1), (130, -1), (131, -1), (132, -1), (133, -1)], [(0, -285), (186, 1), (187, 1), (188, 1), (189, 1), (190, 1), (191, 1), (192, 1), (193, 1)]⟩,
  ⟨[(134, -1)], [(134, 1)], [(194, -1)]⟩,
  ⟨[(135, -1)], [(135, 1)], [(195, -1)]⟩,
  ⟨[(136, -1)], [(136, 1)], [(196, -1)]⟩,
  ⟨[(137, -1)], [(137, 1)], [(197, -1)]⟩,
  ⟨[(138, -1)], [(138, 1)], [(198, -1)]⟩,
  ⟨[(139, -1)], [(139, 1)], [(199, -1)]⟩,
  ⟨[(140, -1)], [(140, 1)], [(200, -1)]⟩,
  ⟨[(141, -1)], [(141, 1)], [(201, -1)]⟩,
  ⟨[(0, -45), (134, 1), (135, 1), (136, 1), (137, 1), (138, 1), (139, 1), (140, 1), (141, 1)], [(0, 45), (134, -1), (135, -1), (136, -1), (137, -1), (138, -1), (139, -1), (140, -1), (141, -1)], [(0, -285), (194, 1), (195, 1), (196, 1), (197, 1), (198, 1), (199, 1), (200, 1), (201, 1)]⟩,
  ⟨[(0, -45), (82, 1), (90, 1), (98, 1), (104, 1), (112, 1), (120, 1), (126, 1), (134, 1)], [(0, 45), (82, -1), (90, -1), (98, -1), (104, -1), (112, -1), (120, -1), (126, -1), (134, -1)], [(0, -285), (142, 1), (150, 1), (158, 1), (164, 1), (172, 1), (180, 1), (186, 1), (194, 1)]⟩,
  ⟨[(0, -45), (83, 1), (91, 1), (99, 1), (105, 1), (113, 1), (121, 1), (127, 1), (135, 1)], [(0, 45), (83, -1), (91, -1), (99, -1), (105, -1), (113, -1), (121, -1), (127, -1), (135, -1)], [(0, -285), (143, 1), (151, 1), (159, 1), (165, 1), (173, 1), (181, 1), (187, 1), (195, 1)]⟩,
  ⟨[(0, 45), (82, -1), (83, -1), (90, -1), (91, -1), (98, -1), (99, -1), (104, -1), (105, -1), (112, -1), (113, -1), (120, -1), (121, -1), (128, 1), (136, 1)], [(0, -45), (82, 1), (83, 1), (90, 1), (91, 1), (98, 1), (99, 1), (104, 1), (105, 1), (112, 1), (113, 1), (120, 1), (121, 1), (128, -1), (136, -1)], [(0, 285), (142, -1), (143, -1), (150, -1), (151, -1), (158, -1), (159, -1), (164, -1), (165, -1), (172, -1), (173, -1), (180, -1), (181, -1), (188, 1), (196, 1)]⟩,
  ⟨[(0, -45), (85, 1), (93, 1), (100, 1), (107, 1), (115, 1), (122, 1), (129, 1), (137, 1)], [(0, 45), (85, -1), (93, -1), (100, -1), (107, -1), (115, -1), (122, -1), (129, -1), (137, -1)], [(0, -285), (145, 1), (153, 1), (160, 1), (167, 1), (175, 1), (182, 1), (189, 1), (197, 1)]⟩,
  ⟨[(0, -45), (86, 1), (94, 1), (101, 1), (108, 1), (116, 1), (123, 1), (130, 1), (138, 1)], [(0, 45), (86, -1), (94, -1), (101, -1), (108, -1), (116, -1), (123, -1), (130, -1), (138, -1)], [(0, -285), (146, 1), (154, 1), (161, 1), (168, 1), (176, 1), (183, 1), (190, 1), (198, 1)]⟩,
  ⟨[(0, 45), (85, -1), (86, -1), (93, -1), (94, -1), (100, -1), (101, -1), (107, -1), (108, -1), (115, -1), (116, -1), (122, -1), (123, -1), (131, 1), (139, 1)], [(0, -45), (85, 1), (86, 1), (93, 1), (94, 1), (100, 1), (101, 1), (107, 1), (108, 1), (115, 1), (116, 1), (122, 1), (123, 1), (131, -1), (139, -1)], [(0, 285), (145, -1), (146, -1), (153, -1), (154, -1), (160, -1), (161, -1), (167, -1), (168, -1), (175, -1), (176, -1), (182, -1), (183, -1), (191, 1), (199, 1)]⟩,
  ⟨[(0, -45), (88, 1), (96, 1), (102, 1), (110, 1), (118, 1), (124, 1), (132, 1), (140, 1)], [(0, 45), (88, -1), (96, -1), (102, -1), (110, -1), (118, -1), (124, -1), (132, -1), (140, -1)], [(0, -285), (148, 1), (156, 1), (162, 1), (170, 1), (178, 1), (184, 1), (192, 1), (200, 1)]⟩,
  ⟨[(0, -45), (89, 1), (97, 1), (103, 1), (111, 1), (119, 1), (125, 1), (133, 1), (141, 1)], [(0, 45), (89, -1), (97, -1), (103, -1), (111, -1), (119, -1), (125, -1), (133, -1), (141, -1)], [(0, -285), (149, 1), (157, 1), (163, 1), (171, 1), (179, 1), (185, 1), (193, 1), (201, 1)]⟩,
  ⟨[(0, 135), (88, -1), (89, -1), (96, -1), (97, -1), (102, -1), (103, -1), (110, -1), (111, -1), (118, -1), (119, -1), (124, -1), (125, -1), (126, -1), (127, -1), (128, -1), (129, -1), (130, -1), (131, -1), (132, -1), (133, -1), (134, -1), (135, -1), (136, -1), (137, -1), (138, -1), (139, -1), (140, -1), (141, -1)], [(0, -135), (88, 1), (89, 1), (96, 1), (97, 1), (102, 1), (103, 1), (110, 1), (111, 1), (118, 1), (119, 1), (124, 1), (125, 1), (126, 1), (127, 1), (128, 1), (129, 1), (130, 1), (131, 1), (132, 1), (133, 1), (134, 1), (135, 1), (136, 1), (137, 1), (138, 1), (139, 1), (140, 1), (141, 1)], [(0, 855), (148, -1), (149, -1), (156, -1), (157, -1), (162, -1), (163, -1), (170, -1), (171, -1), (178, -1), (179, -1), (184, -1), (185, -1), (186, -1), (187, -1), (188, -1), (189, -1), (190, -1), (191, -1), (192, -1), (193, -1), (194, -1), (195, -1), (196, -1), (197, -1), (198, -1), (199, -1), (200, -1), (201, -1)]⟩,
  ⟨[(1, 1), (82, -1)], [(1, 1)], []⟩,
  ⟨[(2, 1), (83, -1)], [(2, 1)], []⟩,
  ⟨[(3, 1), (84, -1)], [(3, 1)], []⟩,
  ⟨[(4, 1), (85, -1)], [(4, 1)], []⟩,
  ⟨[(5, 1), (86, -1)], [(5, 1)], []⟩,
  ⟨[(6, 1), (87, -1)], [(6, 1)], []⟩,
  ⟨[(7, 1), (88, -1)], [(7, 1)], []⟩,
  ⟨[(8, 1), (89, -1)], [(8, 1)], []⟩,
  ⟨[(0, -45), (9, 1), (82, 1), (83, 1), (84, 1), (85, 1), (86, 1), (87, 1), (88, 1), (89, 1)], [(9, 1)], []⟩,
  ⟨[(10, 1), (90, -1)], [(10, 1)], []⟩,
  ⟨[(11, 1), (91, -1)], [(11, 1)], []⟩,
  ⟨[(12, 1), (92, -1)], [(12, 1)], []⟩,
  ⟨[(13, 1), (93, -1)], [(13, 1)], []⟩,
  ⟨[(14, 1), (94, -1)], [(14, 1)], []⟩,
  ⟨[(15, 1), (95, -1)], [(15, 1)], []⟩,
  ⟨[(16, 1), (96, -1)], [(16, 1)], []⟩,
  ⟨[(17, 1), (97, -1)], [(17, 1)], []⟩,
  ⟨[(0, -45), (18, 1), (90, 1), (91, 1), (92, 1), (93, 1), (94, 1), (95, 1), (96, 1), (97, 1)], [(18, 1)], []⟩,
  ⟨[(19, 1), (98, -1)], [(19, 1)], []⟩,
  ⟨[(20, 1), (99, -1)], [(20, 1)], []⟩,
  ⟨[(0, -45), (21, 1), (82, 1), (83, 1), (84, 1), (90, 1), (91, 1), (92, 1), (98, 1), (99, 1)], [(21, 1)], []⟩,
  ⟨[(22, 1), (100, -1)], [(22, 1)], []⟩,
  ⟨[(23, 1), (101, -1)], [(23, 1)], []⟩,
  ⟨[(0, -45), (24, 1), (85, 1), (86, 1), (87, 1), (93, 1), (94, 1), (95, 1), (100, 1), (101, 1)], [(24, 1)], []⟩,
  ⟨[(25, 1), (102, -1)], [(25, 1)], []⟩,
  ⟨[(26, 1), (103, -1)], [(26, 1)], []⟩,
  ⟨[(0, 45), (27, 1), (82, -1), (83, -1), (84, -1), (85, -1), (86, -1), (87, -1), (90, -1), (91, -1), (92, -1), (93, -1), (94, -1), (95, -1), (102, 1), (103, 1)], [(27, 1)], []⟩,
  ⟨[(28, 1), (104, -1)], [(28, 1)], []⟩,
  ⟨[(29, 1), (105, -1)], [(29, 1)], []⟩,
  ⟨[(30, 1), (106, -1)], [(30, 1)], []⟩,
  ⟨[(31, 1), (107, -1)], [(31, 1)], []⟩,
  ⟨[(32, 1), (108, -1)], [(32, 1)], []⟩,
  ⟨[(33, 1), (109, -1)], [(33, 1)], []⟩,
  ⟨[(34, 1), (110, -1)], [(34, 1)], []⟩,
  ⟨[(35, 1), (111, -1)], [(35, 1)], []⟩,
  ⟨[(0, -45), (36, 1), (104, 1), (105, 1), (106, 1), (107, 1), (108, 1), (109, 1), (110, 1), (111, 1)], [(36, 1)], []⟩,
  ⟨[(37, 1), (112, -1)], [(37, 1)], []⟩,
  ⟨[(38, 1), (113, -1)], [(38, 1)], []⟩,
  ⟨[(39, 1), (114, -1)], [(39, 1)], []⟩,
  ⟨[(40, 1), (115, -1)], [(40, 1)], []⟩,
  ⟨[(41, 1), (116, -1)], [(41, 1)], []⟩,
  ⟨[(42, 1), (117, -1)], [(42, 1)], []⟩,
  ⟨[(43, 1), (118, -1)], [(43, 1)], []⟩,
  ⟨[(44, 1), (119, -1)], [(44, 1)], []⟩,
  ⟨[(0, -45), (45, 1), (112, 1), (113, 1), (114, 1), (115, 1), (116, 1), (117, 1), (118, 1), (119, 1)], [(45, 1)], []⟩,
  ⟨[(46, 1), (120, -1)], [(46, 1)], []⟩,
  ⟨[(47, 1), (121, -1)], [(47, 1)], []⟩,
  ⟨[(0, -45), (48, 1), (104, 1), (105, 1), (106, 1), (112, 1), (113, 1), (114, 1), (120, 1), (121, 1)], [(48, 1)], []⟩,
  ⟨[(49, 1), (122, -1)], [(49, 1)], []⟩,
  ⟨[(50, 1), (123, -1)], [(50, 1)], []⟩,
  ⟨[(0, -45), (51, 1), (107, 1), (108, 1), (109, 1), (115, 1), (116, 1), (117, 1), (122, 1), (123, 1)], [(51, 1)], []⟩,
  ⟨[(52, 1), (124, -1)], [(52, 1)], []⟩,
  ⟨[(53, 1), (125, -1)], [(53, 1)], []⟩,
  ⟨[(0, 45), (54, 1), (104, -1), (105, -1), (106, -1), (107, -1), (108, -1), (109, -1), (112, -1), (113, -1), (114, -1), (115, -1), (116, -1), (117, -1), (124, 1), (125, 1)], [(54, 1)], []⟩,
  ⟨[(55, 1), (126, -1)], [(55, 1)], []⟩,
  ⟨[(56, 1), (127, -1)], [(56, 1)], []⟩,
  ⟨[(57, 1), (128, -1)], [(57, 1)], []⟩,
  ⟨[(58, 1), (129, -1)], [(58, 1)], []⟩,
  ⟨[(59, 1), (130, -1)], [(59, 1)], []⟩,
  ⟨[(60, 1), (131, -1)], [(60, 1)], []⟩,
  ⟨[(61, 1), (132, -1)], [(61, 1)], []⟩,
  ⟨[(62, 1), (133, -1)], [(62, 1)], []⟩,
  ⟨[(0, -45), (63, 1), (126, 1), (127, 1), (128, 1), (129, 1), (130, 1), (131, 1), (132, 1), (133, 1)], [(63, 1)], []⟩,
  ⟨[(64, 1), (134, -1)], [(64, 1)], []⟩,
  ⟨[(65, 1), (135, -1)], [(65, 1)], []⟩,
  ⟨[(66, 1), (136, -1)], [(66, 1)], []⟩,
  ⟨[(67, 1), (137, -1)], [(67, 1)], []⟩,
  ⟨[(68, 1), (138, -1)], [(68, 1)], []⟩,
  ⟨[(69, 1), (139, -1)], [(69, 1)], []⟩,
  ⟨[(70, 1), (140, -1)], [(70, 1)], []⟩,
  ⟨[(71, 1), (141, -1)], [(71, 1)], []⟩,
  ⟨[(0, -45), (72, 1), (134, 1), (135, 1), (136, 1), (137, 1), (138, 1), (139, 1), (140, 1), (141, 1)], [(72, 1)], []⟩,
  ⟨[(0, -45), (73, 1), (82, 1), (90, 1), (98, 1), (104, 1), (112, 1), (120, 1), (126, 1), (134, 1)], [(73, 1)], []⟩,
  ⟨[(0, -45), (74, 1), (83, 1), (91, 1), (99, 1), (105, 1), (113, 1), (121, 1), (127, 1), (135, 1)], [(74, 1)], []⟩,
  ⟨[(0, 45), (75, 1), (82, -1), (83, -1), (90, -1), (91, -1), (98, -1), (99, -1), (104, -1), (105, -1), (112, -1), (113, -1), (120, -1), (121, -1), (128, 1), (136, 1)], [(75, 1)], []⟩,
  ⟨[(0, -45), (76, 1), (85, 1), (93, 1), (100, 1), (107, 1), (115, 1), (122, 1), (129, 1), (137, 1)], [(76, 1)], []⟩,
  ⟨[(0, -45), (77, 1), (86, 1), (94, 1), (101, 1), (108, 1), (116, 1), (123, 1), (130, 1), (138, 1)], [(77, 1)], []⟩,
  ⟨[(0, 45), (78, 1), (85, -1), (86, -1), (93, -1), (94, -1), (100, -1), (101, -1), (107, -1), (108, -1), (115, -1), (116, -1), (122, -1), (123, -1), (131, 1), (139, 1)], [(78, 1)], []⟩,
  ⟨[(0, -45), (79, 1), (88, 1), (96, 1), (102, 1), (110, 1), (118, 1), (124, 1), (132, 1), (140, 1)], [(79, 1)], []⟩,
  ⟨[(0, -45), (80, 1), (89, 1), (97, 1), (103, 1), (111, 1), (119, 1), (125, 1), (133, 1), (141, 1)], [(80, 1)], []⟩,
  ⟨[(0, 135), (81, 1), (88, -1), (89, -1), (96, -1), (97, -1), (102, -1), (103, -1), (110, -1), (111, -1), (118, -1), (119, -1), (124, -1), (125, -1), (126, -1), (127, -1), (128, -1), (129, -1), (130, -1), (131, -1), (132, -1), (133, -1), (134, -1), (135, -1), (136, -1), (137, -1), (138, -1), (139, -1), (140, -1), (141, -1)], [(81, 1)], []⟩]

/-- The wire-to-label table of `sudoku.r1cs` (section 3 of the file). -/
def sudokuLabels : List Nat := [
  0, 1, 2, 3, 4, 5, 6, 7, 8, 9, 10, 11, 12, 13, 14, 15, 16, 17, 18, 19, 20, 21, 22, 23, 24, 25, 26, 27, 28, 29, 30, 31, 32, 33, 34, 35, 36, 37, 38, 39, 40, 41, 42, 43, 44, 45, 46, 47, 48, 49, 50, 51, 52, 53, 54, 55, 56, 57, 58, 59, 60, 61, 62, 63, 64, 65, 66, 67, 68, 69, 70, 71, 72, 73, 74, 75, 76, 77, 78, 79, 80, 81, 82, 83, 84, 85, 86, 87, 88, 89, 91, 92, 93, 94, 95, 96, 97, 98, 100, 101, 103, 104, 106, 107, 109, 110, 111, 112, 113, 114, 115, 116, 118, 119, 120, 121, 122, 123, 124, 125, 127, 128, 130, 131, 133, 134, 136, 137, 138, 139, 140, 141, 142, 143, 145, 146, 147, 148, 149, 150, 151, 152, 163, 164, 165, 166, 167, 168, 169, 170, 172, 173, 174, 175, 176, 177, 178, 179, 181, 182, 184, 185, 187, 188, 190, 191, 192, 193, 194, 195, 196, 197, 199, 200, 201, 202, 203, 204, 205, 206, 208, 209, 211, 212, 214, 215, 217, 218, 219, 220, 221, 222, 223, 224, 226, 227, 228, 229, 230, 231, 232, 233]

/-- What `sudoku.r1cs` holds: header (section 1: 202 wires, 0 public outputs, 81 public inputs, 81 private inputs, 244 labels, 162 constraints),
constraints and labels. -/
def sudokuR1cs : R1csFile where
  fieldSize := 32
  prime := leBytes 32 frModulus
  nWires := 202
  nPubOut := 0
  nPubIn := 81
  nPrvIn := 81
  nLabels := 244
  nConstraints := 162
  constraints := sudokuTable.map IntCstr.toFile
  wire2label := sudokuLabels

/-- The three arrays of signals in the order of their labels (`sudoku.sym`, last column). -/
def sudokuSignalName (label : Nat) : Str :=
  if label < 82 then "main.puzzle[".toList ++ (natDec (label - 1) ++ [']'])
  else if label < 163 then "main.solution[".toList ++ (natDec (label - 82) ++ [']'])
  else "main.solutionSquared[".toList ++ (natDec (label - 163) ++ [']'])

/-- The wire of a signal, -1 if the compiler removed it (`sudoku.sym`, second column). -/
def sudokuWire (label : Nat) : Int := if label ∈ sudokuLabels then (sudokuLabels.idxOf label : Int) else -1

/-- A line of `sudoku.sym`. -/
def sudokuSymLine (label : Nat) : Str :=
  natDec label ++ ',' :: (intDec (sudokuWire label) ++ ',' :: ('0' :: ',' :: sudokuSignalName label))

/-- The text of `sudoku.sym`: one line per label from 1 to 243, each ended by a line feed. -/
def sudokuSym : Str := (List.range 243).flatMap fun i => sudokuSymLine (i + 1) ++ ['\n']

end Zkenc
