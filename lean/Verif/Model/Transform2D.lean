import Verif.Model.Mat

/-!
# Model of the plane transformations, `src/nx_transform_2d.c`, `nx_homography_estimate_unit`

Exact arithmetic over a field `K` (see `Model/Mat.lean`); `cos` and `sin` are parameters.
-/

namespace Nx

/-- An array of eight numbers: the coordinates of four points. -/
structure A8 (K : Type) where
  e0 : K
  e1 : K
  e2 : K
  e3 : K
  e4 : K
  e5 : K
  e6 : K
  e7 : K
deriving DecidableEq, Repr

variable {K : Type} [Field K]

/-- `nx_transform_2d_fill_similarity_s`, `_d`, `src/nx_transform_2d.c:41-84`. -/
def fillSimilarity (cos sin : K → K) (dxPost dyPost lambda theta dxPre dyPre : K) : M3 K :=
  let lc := lambda * cos theta
  let ls := lambda * sin theta
  { e0 := lc
    e1 := ls
    e2 := 0
    e3 := -ls
    e4 := lc
    e5 := 0
    e6 := dxPost + dxPre * lc - dyPre * ls
    e7 := dxPre * ls + dyPost + dyPre * lc
    e8 := 1 }

/-- `nx_transform_2d_fill_affine_s`, `_d`, `src/nx_transform_2d.c:99-168`. -/
def fillAffine (cos sin : K → K) (dxPost dyPost lambda psi theta phi dxPre dyPre : K) : M3 K :=
  let sphi := sin phi
  let cphi := cos phi
  let spsi := sin psi
  let cpsi := cos psi
  let ctheta_inv := 1 / cos theta
  let lss := lambda * sphi * spsi
  let lcc := lambda * cphi * cpsi
  let lsc1 := lambda * spsi * cphi
  let lsc2 := lambda * sphi * cpsi
  let lssi := lss * ctheta_inv
  let lcci := lcc * ctheta_inv
  let lsc1i := lsc1 * ctheta_inv
  let lsc2i := lsc2 * ctheta_inv
  { e0 := -lss + lcci
    e1 := lsc2 + lsc1i
    e2 := 0
    e3 := -lsc2i - lsc1
    e4 := -lssi + lcc
    e5 := 0
    e6 := dxPost + dxPre * (-lss + lcci) + dyPre * (-lsc2i - lsc1)
    e7 := dxPre * (lsc2 + lsc1i) + dyPost + dyPre * (-lssi + lcc)
    e8 := 1 }

/-- `nx_transform_2d_fill_perspective_s`, `_d`, `src/nx_transform_2d.c:179-651` and
`nx_homography_estimate_unit`, `src/nx_homography.c:362-598`, which compute the same (the first
two fill the matrix in another order): the matrix and the returned value. The reciprocal
in the definition of `t191` is a parameter here, see `estimateUnit`. -/
def estimateUnitWith (recip : K → K) (x : A8 K) : M3 K × K :=
  let t1 := x.e0 * x.e3
  let t2 := x.e0 * x.e5
  let t3 := x.e4 * x.e3
  let t4 := x.e2 * x.e1
  let t5 := x.e4 * x.e1
  let t6 := x.e2 * x.e5
  let t8 := x.e2 * x.e7
  let t9 := x.e6 * x.e5
  let t10 := x.e6 * x.e3
  let t11 := x.e7 * x.e4
  let t12 := -t8 + t6 - t3 - t9 + t10 + t11
  let t15 := x.e0 * x.e6
  let t16 := x.e3 * x.e3
  let t19 := 2 * t16 * t5 * t15
  let t20 := t16 * x.e4
  let t22 := x.e6 * t20 * t2
  let t24 := x.e0 * x.e2
  let t25 := x.e7 * x.e7
  let t26 := x.e4 * t25
  let t28 := x.e1 * t26 * t24
  let t30 := x.e0 * x.e0
  let t31 := x.e7 * t30
  let t32 := x.e3 * t9
  let t33 := t32 * t31
  let t35 := x.e5 * t8
  let t36 := x.e6 * x.e4
  let t37 := x.e1 * t36
  let t39 := 2 * t37 * t35
  let t41 := x.e7 * t10
  let t43 := 2 * t41 * x.e4 * t2
  let t44 := x.e4 * x.e4
  let t45 := t44 * x.e7
  let t46 := x.e6 * t16
  let t48 := x.e7 * x.e0
  let t50 := x.e1 * t10
  let t51 := t50 * x.e4 * t48
  let t53 := x.e6 * x.e2
  let t54 := x.e5 * t53
  let t55 := x.e3 * t5
  let t56 := t55 * t54
  let t58 := x.e2 * x.e2
  let t59 := x.e7 * t58
  let t60 := x.e5 * x.e5
  let t61 := x.e6 * t60
  let t63 := t60 * t58
  let t64 := x.e6 * x.e1
  let t65 := t64 * t63
  let t67 := t60 * x.e0
  let t68 := x.e3 * t53
  let t69 := t68 * t67
  let t71 := x.e1 * x.e1
  let t72 := t71 * x.e6
  let t74 := x.e6 * x.e6
  let t75 := t74 * x.e5
  let t76 := x.e4 * t71
  let t78 := -t19 + 2 * t22 + 2 * t28 + 2 * t33 + t39 - t43 + t46 * t45 + 2 * t51 - 2 * t56 - t61 * t59 + 2 * t65
      - 2 * t69 + t72 * t45 - t76 * t75
  let t79 := x.e2 * t71
  let t80 := t79 * t75
  let t82 := x.e5 * t24
  let t83 := x.e7 * t3
  let t84 := t83 * t82
  let t86 := x.e5 * t58
  let t87 := t72 * t86
  let t89 := x.e7 * t53
  let t92 := t72 * t59
  let t93 := t60 * x.e2
  let t94 := x.e1 * t74
  let t95 := t94 * t93
  let t97 := x.e3 * t74
  let t98 := t79 * t97
  let t99 := x.e1 * t86
  let t101 := 2 * t99 * t48
  let t103 := t44 * t25
  let t104 := x.e2 * x.e3
  let t107 := x.e5 * x.e4
  let t108 := t74 * t16
  let t110 := t71 * t44
  let t111 := t104 * t110
  let t112 := t25 * x.e0
  let t113 := x.e2 * x.e4
  let t117 := 2 * t80 + 2 * t84 - 2 * t87 + 2 * t89 * t67 + t92 - 2 * t95 - t98 + t101 + t86 * t26 - t104 * t103
      + t97 * t93 - t108 * t107 - t111 - 2 * x.e5 * t113 * t112
  let t119 := x.e2 * t30
  let t120 := x.e3 * t25
  let t121 := t120 * t119
  let t122 := t86 * t76
  let t123 := x.e2 * t48
  let t126 := t60 * t30
  let t127 := t104 * t126
  let t128 := x.e1 * t9
  let t129 := t128 * t123
  let t131 := x.e6 * x.e7
  let t133 := x.e1 * t15
  let t134 := x.e3 * t6
  let t138 := t25 * t30
  let t139 := t3 * t138
  let t141 := x.e5 * t30
  let t142 := t20 * t141
  let t143 := t20 * t31
  let t147 := x.e6 * t30
  let t148 := x.e7 * t16
  let t149 := t148 * t147
  let t150 := x.e1 * t58
  let t151 := t150 * t67
  let t152 := t121 + t122 - 2 * t55 * t123 + t127 - 2 * t129 - t131 * t126 + 2 * t134 * t133 + t94 * t67
      - 2 * t139 - t142 + 2 * t143 - 2 * t50 * t45 - t149 - t151
  let t154 := t1 * t103
  let t157 := x.e1 * t25
  let t158 := t157 * t58 * x.e0
  let t159 := x.e1 * t44
  let t161 := t16 * t44
  let t162 := t161 * t48
  let t164 := t44 * x.e0
  let t165 := t16 * x.e1
  let t166 := t165 * t164
  let t167 := t74 * x.e0
  let t168 := t165 * t167
  let t169 := t71 * t36
  let t170 := t169 * t8
  let t173 := x.e3 * t2 * t94
  let t176 := 2 * t134 * t31
  let t177 := x.e1 * t75
  let t180 := t71 * t53
  let t182 := 2 * t180 * t3
  let t183 := x.e1 * t104
  let t184 := t183 * t45
  let t186 := t99 * t11
  let t188 := t141 * t26 + 2 * t154 - t158 - t159 * t112 - 2 * t162 + t166 + t168 - 2 * t170 - 2 * t173 - t176
      + 2 * t177 * t3 + t182 + 2 * t184 - 2 * t186
  let det := t78 + t117 + t152 + t188
  let t191 := recip det
  let t194 := x.e3 * t15
  let t195 := x.e0 * x.e4
  let t196 := x.e3 * t195
  let t198 := x.e1 * t53
  let t200 := x.e3 * t36
  let t202 := x.e3 * t30
  let t203 := -t194 - t196 + x.e1 * t195 + t198 + t82 - x.e1 * t24 - t54 + t200 - t37 + x.e5 * t15 - t141 + t202
  let t208 := t3 * t48
  let t209 := x.e7 * x.e1
  let t212 := x.e7 * x.e5
  let t213 := t212 * t24
  let t214 := x.e1 * x.e0
  let t216 := t64 * t6
  let t217 := t64 * t3
  let t218 := x.e1 * x.e5
  let t220 := x.e7 * t202 - x.e5 * t31 - t208 - t209 * t24 + t5 * t48 + t213 - t10 * t214 + t180 - t216 + t217
      - t169 + t218 * t15
  let t223 := x.e3 * t45
  let t225 := t74 * t60
  let t232 := t25 * x.e2
  let t236 := -t223 + t103 - x.e2 * t61 + t225 - x.e6 * t67 + x.e1 * t97 + t208 + x.e3 * t159 - t177 - x.e3 * t75
      - x.e7 * t159 + x.e2 * t67 - x.e4 * t232 + t25 * t24 - x.e4 * t112 + t216
  let t249 := x.e3 * x.e7
  let t256 := -2 * t213 - 2 * t217 - 2 * t36 * t212 + t3 * t9 - t3 * t2 + t11 * t6 + t9 * t5 - t6 * t5 + t8 * t5
      + t64 * t11 + t131 * t2 - t249 * t15 + t131 * t3 - t64 * t8 + t9 * t1 + t131 * t6 + t11 * t2
  let t261 := t200 * t6
  let t264 := x.e4 * t138
  let t267 := 2 * t198 * t3
  let t268 := t25 * t119
  let t269 := x.e2 * t126
  let t270 := x.e6 * t126
  let t272 := x.e3 * x.e1
  let t274 := t74 * t93
  let t275 := t37 * t48
  let t277 := -t261 - t86 * t11 + t128 * t195 - t264 - t89 * t3 + t267 + t268 + t269 - t270 + t133 * t6
      + t272 * t167 - t274 + t275 + t3 * t31
  let t279 := x.e3 * t113 * t2
  let t282 := 2 * t133 * t3
  let t283 := t25 * t58
  let t284 := x.e0 * t283
  let t286 := 2 * t212 * t119
  let t289 := x.e1 * t131 * t24
  let t294 := t11 * t141
  let t295 := x.e5 * t4
  let t298 := 2 * t2 * t59
  let t299 := t37 * t8
  let t300 := t74 * t67
  let t301 := t279 - t249 * t147 - t282 - t284 - t286 - t64 * t86 - t289 - t94 * t2 - t196 * t8 + x.e7 * t1 * t53
      + t294 - t295 * t195 + t298 - t299 + t300
  let t303 := x.e4 * t283
  let t304 := t58 * t67
  let t305 := t44 * t112
  let t306 := x.e7 * t4
  let t307 := t306 * t195
  let t308 := x.e6 * t63
  let t310 := t4 * t97
  let t311 := t131 * t86
  let t313 := x.e2 * t103
  let t314 := t3 * t141
  let t315 := t10 * t141
  let t316 := t272 * t164
  let t319 := t303 - t304 + t305 + t307 + t308 - t295 * t36 - t310 - t311 + t41 * t195 - t313 - t314 + t315
      + t316 - x.e3 * t44 * t48
  let t320 := t209 * t164
  let t321 := t97 * t2
  let t323 := t200 * t2
  let t325 := t8 * t159
  let t327 := t59 * t5
  let t328 := t104 * t75
  let t330 := t64 * t59
  let t332 := t68 * t2
  let t333 := x.e6 * t11
  let t334 := t333 * t6
  let t336 := t333 * t2
  let t338 := -t320 - t321 - t104 * t159 + t323 + t86 * t5 + t325 + t104 * t45 - t327 + t328 + t131 * t141 + t330
      + t94 * t6 - t332 + 2 * t334 - 2 * t336
  let t346 := x.e2 * t44
  let t349 := -t19 + t22 + t28 + t33 + t39 - t43 - t59 * t76 - x.e1 * t2 * x.e2 * t11 - t346 * t157 + t51 - t56
      + t65 - t69 - t54 * t76
  let t350 := x.e0 * t16
  let t356 := t80 + x.e6 * t350 * t11 + t84 - t87 + t194 * t35 + t92 - t95 - t350 * t75 + t83 * t141 - t98 + t101
      - t111 + t121 + t122 + t127
  let t361 := -t129 - t139 - t142 + t143 - t149 + t26 * t150 - t151 + t154 - t158 - t162 + t166 + t168
      + t196 * t128 - t223 * t214
  let t368 := t30 * t16
  let t372 := t133 * t93 - t170 - t173 - t176 - t128 * t59 + t182 - t198 * t83 + t184 - t196 * t232 - t10 * t126
      + t97 * t67 - t186 + t368 * t9 + t8 * t110 + t295 * t97
  let t394 := t16 * t75 - x.e1 * t63 - x.e5 * t283 + 2 * x.e1 * t107 * t8 + x.e5 * t368 + x.e1 * t283 - t71 * t45
      + x.e7 * t126 + t71 * t97 - t71 * t75 - t30 * x.e5 * t25 + t60 * t59 + 2 * t55 * t6 + t71 * t86
  let t419 := -2 * t11 * t46 - t71 * t59 - 2 * x.e3 * t107 * t8 + t16 * t45 + x.e3 * t110 - t16 * t159
      - x.e7 * t368 - 2 * t5 * t232 + 2 * t64 * t20 + 2 * x.e1 * t11 * t10 - 2 * t183 * t11 + x.e1 * t225
      + 2 * t32 * t11 + 2 * t76 * t8
  let t445 := x.e3 * t218
  let t448 := x.e3 * t209
  let t451 := 2 * t232 * t2 + 2 * x.e1 * t60 * t24 - 2 * t6 * t76 - 2 * t46 * t2 - 2 * t120 * t24
      - 2 * t60 * x.e7 * t24 - 2 * t64 * t67 + 2 * t148 * t15 + 2 * t10 * t67 - x.e3 * t103 + x.e1 * t103
      - 2 * t306 * t2 - 2 * t445 * t24 + 2 * t448 * t24
  let t452 := x.e3 * t212
  let t477 := 2 * t452 * t24 - 2 * t452 * t15 - 2 * t448 * t15 - 2 * t72 * t3 - 2 * t37 * t212 - 2 * t55 * t9
      - x.e1 * t108 - x.e3 * t126 + 2 * t76 * t9 + 2 * t3 * t232 + 2 * t128 * t48 + 2 * t445 * t15 - x.e3 * t225
      + x.e3 * t138
  let t494 := -x.e4 * t71 * t74 - t16 * t164 - 2 * t261 + 2 * t50 * t24 - x.e4 * t108 - t264 + t16 * t167
      + x.e4 * t71 * t58 - 2 * x.e4 * t212 * t24 + t267 + t268 + t269 - t270 - t274
  let t512 := t71 * t44 * x.e6 + 2 * t275 + 2 * x.e7 * t15 * t6 + 2 * t279 - t282 - t284 - t71 * t346 - t286
      - t71 * x.e6 * t58 - 2 * t289 - t16 * t147 + t71 * t74 * x.e2 + 2 * t294 + t16 * x.e4 * t30
  let t521 := t298 - 2 * t299 + t300 + t303 - t304 + t305 + 2 * t307 + t308 + x.e6 * t161 - 2 * t310 - 2 * t311
      - t313 - 2 * t314 + 2 * t315
  let t525 := t316 - t320 - t321 + t97 * t5 + t323 + t325 - t327 + t328 + t330 - t332 + t334 - t336 - t10 * t159
      - t183 * t195
  ({ e0 := -t191 * (-x.e7 + x.e1) * t12 * (t1 - t2 - t3 - t4 + t5 + t6)
     e1 := t191 * (-x.e3 + x.e1) * (t236 + t256)
     e2 := t191 * (t394 + t419 + t451 + t477)
     e3 := t191 * t203 * t12
     e4 := -t191 * (t277 + t301 + t319 + t338)
     e5 := -t191 * (t494 + t512 + t521 + 2 * t525)
     e6 := -t191 * t220 * t12
     e7 := t191 * (t349 + t356 + t361 + t372)
     e8 := 1 }, det)

/-- `nx_homography_estimate_unit`, `nx_transform_2d_fill_perspective_s`, `_d`: as above with
`t191 = 1/det`. There is no test for `det` being zero. -/
def estimateUnit (x : A8 K) : M3 K × K := estimateUnitWith (fun d => 1 / d) x

end Nx
