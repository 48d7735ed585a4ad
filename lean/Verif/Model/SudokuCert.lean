import Verif.Model.Sudoku
/-!
# Elimination table for the compiled Sudoku circuit

GENERATED by `tools/gen_sudoku.py`. Proof data: checked in `Props/Sudoku.lean`, not trusted.
-/

namespace Zkenc

/-- A signal without a wire, its value in terms of signals with wires, and (number, factor) of linear constraints of the template. -/
structure ElimRow where
  sig : Nat
  expr : IntLc
  mult : List (Nat × Int)

/-- For every signal without a wire: the signal, its value as a combination of signals with wires, and the multiples of the linear constraints
of the template from which this follows. -/
def sudokuElim : List ElimRow := [
  ⟨90, [(0, 45), (82, -1), (83, -1), (84, -1), (85, -1), (86, -1), (87, -1), (88, -1), (89, -1)], [(0, 1)]⟩,
  ⟨99, [(0, 45), (91, -1), (92, -1), (93, -1), (94, -1), (95, -1), (96, -1), (97, -1), (98, -1)], [(2, 1)]⟩,
  ⟨102, [(0, 45), (82, -1), (83, -1), (84, -1), (91, -1), (92, -1), (93, -1), (100, -1), (101, -1)], [(36, 1)]⟩,
  ⟨105, [(0, 45), (85, -1), (86, -1), (87, -1), (94, -1), (95, -1), (96, -1), (103, -1), (104, -1)], [(38, 1)]⟩,
  ⟨108, [(0, -45), (82, 1), (83, 1), (84, 1), (85, 1), (86, 1), (87, 1), (91, 1), (92, 1), (93, 1), (94, 1), (95, 1), (96, 1), (106, -1), (107, -1)], [(4, 1), (36, -1), (38, -1)]⟩,
  ⟨117, [(0, 45), (109, -1), (110, -1), (111, -1), (112, -1), (113, -1), (114, -1), (115, -1), (116, -1)], [(6, 1)]⟩,
  ⟨126, [(0, 45), (118, -1), (119, -1), (120, -1), (121, -1), (122, -1), (123, -1), (124, -1), (125, -1)], [(8, 1)]⟩,
  ⟨129, [(0, 45), (109, -1), (110, -1), (111, -1), (118, -1), (119, -1), (120, -1), (127, -1), (128, -1)], [(42, 1)]⟩,
  ⟨132, [(0, 45), (112, -1), (113, -1), (114, -1), (121, -1), (122, -1), (123, -1), (130, -1), (131, -1)], [(44, 1)]⟩,
  ⟨135, [(0, -45), (109, 1), (110, 1), (111, 1), (112, 1), (113, 1), (114, 1), (118, 1), (119, 1), (120, 1), (121, 1), (122, 1), (123, 1), (133, -1), (134, -1)], [(10, 1), (42, -1), (44, -1)]⟩,
  ⟨144, [(0, 45), (136, -1), (137, -1), (138, -1), (139, -1), (140, -1), (141, -1), (142, -1), (143, -1)], [(12, 1)]⟩,
  ⟨153, [(0, 45), (145, -1), (146, -1), (147, -1), (148, -1), (149, -1), (150, -1), (151, -1), (152, -1)], [(14, 1)]⟩,
  ⟨154, [(0, 45), (82, -1), (91, -1), (100, -1), (109, -1), (118, -1), (127, -1), (136, -1), (145, -1)], [(18, 1)]⟩,
  ⟨155, [(0, 45), (83, -1), (92, -1), (101, -1), (110, -1), (119, -1), (128, -1), (137, -1), (146, -1)], [(20, 1)]⟩,
  ⟨156, [(0, -45), (82, 1), (83, 1), (91, 1), (92, 1), (100, 1), (101, 1), (109, 1), (110, 1), (118, 1), (119, 1), (127, 1), (128, 1), (138, -1), (147, -1)], [(22, 1), (36, -1), (42, -1)]⟩,
  ⟨157, [(0, 45), (85, -1), (94, -1), (103, -1), (112, -1), (121, -1), (130, -1), (139, -1), (148, -1)], [(24, 1)]⟩,
  ⟨158, [(0, 45), (86, -1), (95, -1), (104, -1), (113, -1), (122, -1), (131, -1), (140, -1), (149, -1)], [(26, 1)]⟩,
  ⟨159, [(0, -45), (85, 1), (86, 1), (94, 1), (95, 1), (103, 1), (104, 1), (112, 1), (113, 1), (121, 1), (122, 1), (130, 1), (131, 1), (141, -1), (150, -1)], [(28, 1), (38, -1), (44, -1)]⟩,
  ⟨160, [(0, 45), (88, -1), (97, -1), (106, -1), (115, -1), (124, -1), (133, -1), (142, -1), (151, -1)], [(30, 1)]⟩,
  ⟨161, [(0, 45), (89, -1), (98, -1), (107, -1), (116, -1), (125, -1), (134, -1), (143, -1), (152, -1)], [(32, 1)]⟩,
  ⟨162, [(0, -135), (88, 1), (89, 1), (97, 1), (98, 1), (106, 1), (107, 1), (115, 1), (116, 1), (124, 1), (125, 1), (133, 1), (134, 1), (136, 1), (137, 1), (138, 1), (139, 1), (140, 1), (141, 1), (142, 1), (143, 1), (145, 1), (146, 1), (147, 1), (148, 1), (149, 1), (150, 1), (151, 1), (152, 1)], [(16, 1), (18, -1), (20, -1), (22, -1), (24, -1), (26, -1), (28, -1), (30, -1), (32, -1), (36, 1), (38, 1), (42, 1), (44, 1)]⟩,
  ⟨171, [(0, 285), (163, -1), (164, -1), (165, -1), (166, -1), (167, -1), (168, -1), (169, -1), (170, -1)], [(1, 1)]⟩,
  ⟨180, [(0, 285), (172, -1), (173, -1), (174, -1), (175, -1), (176, -1), (177, -1), (178, -1), (179, -1)], [(3, 1)]⟩,
  ⟨183, [(0, 285), (163, -1), (164, -1), (165, -1), (172, -1), (173, -1), (174, -1), (181, -1), (182, -1)], [(37, 1)]⟩,
  ⟨186, [(0, 285), (166, -1), (167, -1), (168, -1), (175, -1), (176, -1), (177, -1), (184, -1), (185, -1)], [(39, 1)]⟩,
  ⟨189, [(0, -285), (163, 1), (164, 1), (165, 1), (166, 1), (167, 1), (168, 1), (172, 1), (173, 1), (174, 1), (175, 1), (176, 1), (177, 1), (187, -1), (188, -1)], [(5, 1), (37, -1), (39, -1)]⟩,
  ⟨198, [(0, 285), (190, -1), (191, -1), (192, -1), (193, -1), (194, -1), (195, -1), (196, -1), (197, -1)], [(7, 1)]⟩,
  ⟨207, [(0, 285), (199, -1), (200, -1), (201, -1), (202, -1), (203, -1), (204, -1), (205, -1), (206, -1)], [(9, 1)]⟩,
  ⟨210, [(0, 285), (190, -1), (191, -1), (192, -1), (199, -1), (200, -1), (201, -1), (208, -1), (209, -1)], [(43, 1)]⟩,
  ⟨213, [(0, 285), (193, -1), (194, -1), (195, -1), (202, -1), (203, -1), (204, -1), (211, -1), (212, -1)], [(45, 1)]⟩,
  ⟨216, [(0, -285), (190, 1), (191, 1), (192, 1), (193, 1), (194, 1), (195, 1), (199, 1), (200, 1), (201, 1), (202, 1), (203, 1), (204, 1), (214, -1), (215, -1)], [(11, 1), (43, -1), (45, -1)]⟩,
  ⟨225, [(0, 285), (217, -1), (218, -1), (219, -1), (220, -1), (221, -1), (222, -1), (223, -1), (224, -1)], [(13, 1)]⟩,
  ⟨234, [(0, 285), (226, -1), (227, -1), (228, -1), (229, -1), (230, -1), (231, -1), (232, -1), (233, -1)], [(15, 1)]⟩,
  ⟨235, [(0, 285), (163, -1), (172, -1), (181, -1), (190, -1), (199, -1), (208, -1), (217, -1), (226, -1)], [(19, 1)]⟩,
  ⟨236, [(0, 285), (164, -1), (173, -1), (182, -1), (191, -1), (200, -1), (209, -1), (218, -1), (227, -1)], [(21, 1)]⟩,
  ⟨237, [(0, -285), (163, 1), (164, 1), (172, 1), (173, 1), (181, 1), (182, 1), (190, 1), (191, 1), (199, 1), (200, 1), (208, 1), (209, 1), (219, -1), (228, -1)], [(23, 1), (37, -1), (43, -1)]⟩,
  ⟨238, [(0, 285), (166, -1), (175, -1), (184, -1), (193, -1), (202, -1), (211, -1), (220, -1), (229, -1)], [(25, 1)]⟩,
  ⟨239, [(0, 285), (167, -1), (176, -1), (185, -1), (194, -1), (203, -1), (212, -1), (221, -1), (230, -1)], [(27, 1)]⟩,
  ⟨240, [(0, -285), (166, 1), (167, 1), (175, 1), (176, 1), (184, 1), (185, 1), (193, 1), (194, 1), (202, 1), (203, 1), (211, 1), (212, 1), (222, -1), (231, -1)], [(29, 1), (39, -1), (45, -1)]⟩,
  ⟨241, [(0, 285), (169, -1), (178, -1), (187, -1), (196, -1), (205, -1), (214, -1), (223, -1), (232, -1)], [(31, 1)]⟩,
  ⟨242, [(0, 285), (170, -1), (179, -1), (188, -1), (197, -1), (206, -1), (215, -1), (224, -1), (233, -1)], [(33, 1)]⟩,
  ⟨243, [(0, -855), (169, 1), (170, 1), (178, 1), (179, 1), (187, 1), (188, 1), (196, 1), (197, 1), (205, 1), (206, 1), (214, 1), (215, 1), (217, 1), (218, 1), (219, 1), (220, 1), (221, 1), (222, 1), (223, 1), (224, 1), (226, 1), (227, 1), (228, 1), (229, 1), (230, 1), (231, 1), (232, 1), (233, 1)], [(17, 1), (19, -1), (21, -1), (23, -1), (25, -1), (27, -1), (29, -1), (31, -1), (33, -1), (37, 1), (39, 1), (43, 1), (45, 1)]⟩]

end Zkenc
