/-!
# The decision trees of `src/fast/fast_9.c`

Transcribed by a script from the nested `if`s of the two functions. An `else` belongs to the
nearest `if`. `yes` is `goto is_a_corner` or `{}`, `no` is `goto is_not_a_corner` or `continue`.
-/

namespace Nx

/-- Nested `if` statements: `bright i a b` is `if (p[pixel[i]] > cb) a else b`, `dark i a b` is
`if (p[pixel[i]] < c_b) a else b`. -/
inductive FastTree where
  | yes
  | no
  | bright (i : Nat) (a b : FastTree)
  | dark (i : Nat) (a b : FastTree)
deriving DecidableEq, Repr

/-- The decision tree of `fast9_corner_score`, `src/fast/fast_9.c:51-2952`, one node per `if`, in the order of
the source. -/
def fast9ScoreTree : FastTree :=
  .bright 0
   (.bright 1
    (.bright 2
     (.bright 3
      (.bright 4
       (.bright 5
        (.bright 6
         (.bright 7
          (.bright 8
           .yes
           (.bright 15
            .yes
            .no))
          (.dark 7
           (.bright 14
            (.bright 15
             .yes
             .no)
            (.dark 14
             (.dark 8
              (.dark 9
               (.dark 10
                (.dark 11
                 (.dark 12
                  (.dark 13
                   (.dark 15
                    .yes
                    .no)
                   .no)
                  .no)
                 .no)
                .no)
               .no)
              .no)
             .no))
           (.bright 14
            (.bright 15
             .yes
             .no)
            .no)))
         (.dark 6
          (.bright 15
           (.bright 13
            (.bright 14
             .yes
             .no)
            (.dark 13
             (.dark 7
              (.dark 8
               (.dark 9
                (.dark 10
                 (.dark 11
                  (.dark 12
                   (.dark 14
                    .yes
                    .no)
                   .no)
                  .no)
                 .no)
                .no)
               .no)
              .no)
             .no))
           (.dark 7
            (.dark 8
             (.dark 9
              (.dark 10
               (.dark 11
                (.dark 12
                 (.dark 13
                  (.dark 14
                   .yes
                   .no)
                  .no)
                 .no)
                .no)
               .no)
              .no)
             .no)
            .no))
          (.bright 13
           (.bright 14
            (.bright 15
             .yes
             .no)
            .no)
           (.dark 13
            (.dark 7
             (.dark 8
              (.dark 9
               (.dark 10
                (.dark 11
                 (.dark 12
                  (.dark 14
                   (.dark 15
                    .yes
                    .no)
                   .no)
                  .no)
                 .no)
                .no)
               .no)
              .no)
             .no)
            .no))))
        (.dark 5
         (.bright 14
          (.bright 12
           (.bright 13
            (.bright 15
             .yes
             (.bright 6
              (.bright 7
               (.bright 8
                (.bright 9
                 (.bright 10
                  (.bright 11
                   .yes
                   .no)
                  .no)
                 .no)
                .no)
               .no)
              .no))
            .no)
           (.dark 12
            (.dark 6
             (.dark 7
              (.dark 8
               (.dark 9
                (.dark 10
                 (.dark 11
                  (.dark 13
                   .yes
                   .no)
                  .no)
                 .no)
                .no)
               .no)
              .no)
             .no)
            .no))
          (.dark 14
           (.dark 7
            (.dark 8
             (.dark 9
              (.dark 10
               (.dark 11
                (.dark 12
                 (.dark 13
                  (.dark 6
                   .yes
                   (.dark 15
                    .yes
                    .no))
                  .no)
                 .no)
                .no)
               .no)
              .no)
             .no)
            .no)
           (.dark 6
            (.dark 7
             (.dark 8
              (.dark 9
               (.dark 10
                (.dark 11
                 (.dark 12
                  (.dark 13
                   .yes
                   .no)
                  .no)
                 .no)
                .no)
               .no)
              .no)
             .no)
            .no)))
         (.bright 12
          (.bright 13
           (.bright 14
            (.bright 15
             .yes
             (.bright 6
              (.bright 7
               (.bright 8
                (.bright 9
                 (.bright 10
                  (.bright 11
                   .yes
                   .no)
                  .no)
                 .no)
                .no)
               .no)
              .no))
            .no)
           .no)
          (.dark 12
           (.dark 7
            (.dark 8
             (.dark 9
              (.dark 10
               (.dark 11
                (.dark 13
                 (.dark 14
                  (.dark 6
                   .yes
                   (.dark 15
                    .yes
                    .no))
                  .no)
                 .no)
                .no)
               .no)
              .no)
             .no)
            .no)
           .no))))
       (.dark 4
        (.bright 13
         (.bright 11
          (.bright 12
           (.bright 14
            (.bright 15
             .yes
             (.bright 6
              (.bright 7
               (.bright 8
                (.bright 9
                 (.bright 10
                  .yes
                  .no)
                 .no)
                .no)
               .no)
              .no))
            (.bright 5
             (.bright 6
              (.bright 7
               (.bright 8
                (.bright 9
                 (.bright 10
                  .yes
                  .no)
                 .no)
                .no)
               .no)
              .no)
             .no))
           .no)
          (.dark 11
           (.dark 5
            (.dark 6
             (.dark 7
              (.dark 8
               (.dark 9
                (.dark 10
                 (.dark 12
                  .yes
                  .no)
                 .no)
                .no)
               .no)
              .no)
             .no)
            .no)
           .no))
         (.dark 13
          (.dark 7
           (.dark 8
            (.dark 9
             (.dark 10
              (.dark 11
               (.dark 12
                (.dark 6
                 (.dark 5
                  .yes
                  (.dark 14
                   .yes
                   .no))
                 (.dark 14
                  (.dark 15
                   .yes
                   .no)
                  .no))
                .no)
               .no)
              .no)
             .no)
            .no)
           .no)
          (.dark 5
           (.dark 6
            (.dark 7
             (.dark 8
              (.dark 9
               (.dark 10
                (.dark 11
                 (.dark 12
                  .yes
                  .no)
                 .no)
                .no)
               .no)
              .no)
             .no)
            .no)
           .no)))
        (.bright 11
         (.bright 12
          (.bright 13
           (.bright 14
            (.bright 15
             .yes
             (.bright 6
              (.bright 7
               (.bright 8
                (.bright 9
                 (.bright 10
                  .yes
                  .no)
                 .no)
                .no)
               .no)
              .no))
            (.bright 5
             (.bright 6
              (.bright 7
               (.bright 8
                (.bright 9
                 (.bright 10
                  .yes
                  .no)
                 .no)
                .no)
               .no)
              .no)
             .no))
           .no)
          .no)
         (.dark 11
          (.dark 7
           (.dark 8
            (.dark 9
             (.dark 10
              (.dark 12
               (.dark 13
                (.dark 6
                 (.dark 5
                  .yes
                  (.dark 14
                   .yes
                   .no))
                 (.dark 14
                  (.dark 15
                   .yes
                   .no)
                  .no))
                .no)
               .no)
              .no)
             .no)
            .no)
           .no)
          .no))))
      (.dark 3
       (.bright 10
        (.bright 11
         (.bright 12
          (.bright 13
           (.bright 14
            (.bright 15
             .yes
             (.bright 6
              (.bright 7
               (.bright 8
                (.bright 9
                 .yes
                 .no)
                .no)
               .no)
              .no))
            (.bright 5
             (.bright 6
              (.bright 7
               (.bright 8
                (.bright 9
                 .yes
                 .no)
                .no)
               .no)
              .no)
             .no))
           (.bright 4
            (.bright 5
             (.bright 6
              (.bright 7
               (.bright 8
                (.bright 9
                 .yes
                 .no)
                .no)
               .no)
              .no)
             .no)
            .no))
          .no)
         .no)
        (.dark 10
         (.dark 7
          (.dark 8
           (.dark 9
            (.dark 11
             (.dark 6
              (.dark 5
               (.dark 4
                .yes
                (.dark 12
                 (.dark 13
                  .yes
                  .no)
                 .no))
               (.dark 12
                (.dark 13
                 (.dark 14
                  .yes
                  .no)
                 .no)
                .no))
              (.dark 12
               (.dark 13
                (.dark 14
                 (.dark 15
                  .yes
                  .no)
                 .no)
                .no)
               .no))
             .no)
            .no)
           .no)
          .no)
         .no))
       (.bright 10
        (.bright 11
         (.bright 12
          (.bright 13
           (.bright 14
            (.bright 15
             .yes
             (.bright 6
              (.bright 7
               (.bright 8
                (.bright 9
                 .yes
                 .no)
                .no)
               .no)
              .no))
            (.bright 5
             (.bright 6
              (.bright 7
               (.bright 8
                (.bright 9
                 .yes
                 .no)
                .no)
               .no)
              .no)
             .no))
           (.bright 4
            (.bright 5
             (.bright 6
              (.bright 7
               (.bright 8
                (.bright 9
                 .yes
                 .no)
                .no)
               .no)
              .no)
             .no)
            .no))
          .no)
         .no)
        (.dark 10
         (.dark 7
          (.dark 8
           (.dark 9
            (.dark 11
             (.dark 12
              (.dark 6
               (.dark 5
                (.dark 4
                 .yes
                 (.dark 13
                  .yes
                  .no))
                (.dark 13
                 (.dark 14
                  .yes
                  .no)
                 .no))
               (.dark 13
                (.dark 14
                 (.dark 15
                  .yes
                  .no)
                 .no)
                .no))
              .no)
             .no)
            .no)
           .no)
          .no)
         .no))))
     (.dark 2
      (.bright 9
       (.bright 10
        (.bright 11
         (.bright 12
          (.bright 13
           (.bright 14
            (.bright 15
             .yes
             (.bright 6
              (.bright 7
               (.bright 8
                .yes
                .no)
               .no)
              .no))
            (.bright 5
             (.bright 6
              (.bright 7
               (.bright 8
                .yes
                .no)
               .no)
              .no)
             .no))
           (.bright 4
            (.bright 5
             (.bright 6
              (.bright 7
               (.bright 8
                .yes
                .no)
               .no)
              .no)
             .no)
            .no))
          (.bright 3
           (.bright 4
            (.bright 5
             (.bright 6
              (.bright 7
               (.bright 8
                .yes
                .no)
               .no)
              .no)
             .no)
            .no)
           .no))
         .no)
        .no)
       (.dark 9
        (.dark 7
         (.dark 8
          (.dark 10
           (.dark 6
            (.dark 5
             (.dark 4
              (.dark 3
               .yes
               (.dark 11
                (.dark 12
                 .yes
                 .no)
                .no))
              (.dark 11
               (.dark 12
                (.dark 13
                 .yes
                 .no)
                .no)
               .no))
             (.dark 11
              (.dark 12
               (.dark 13
                (.dark 14
                 .yes
                 .no)
                .no)
               .no)
              .no))
            (.dark 11
             (.dark 12
              (.dark 13
               (.dark 14
                (.dark 15
                 .yes
                 .no)
                .no)
               .no)
              .no)
             .no))
           .no)
          .no)
         .no)
        .no))
      (.bright 9
       (.bright 10
        (.bright 11
         (.bright 12
          (.bright 13
           (.bright 14
            (.bright 15
             .yes
             (.bright 6
              (.bright 7
               (.bright 8
                .yes
                .no)
               .no)
              .no))
            (.bright 5
             (.bright 6
              (.bright 7
               (.bright 8
                .yes
                .no)
               .no)
              .no)
             .no))
           (.bright 4
            (.bright 5
             (.bright 6
              (.bright 7
               (.bright 8
                .yes
                .no)
               .no)
              .no)
             .no)
            .no))
          (.bright 3
           (.bright 4
            (.bright 5
             (.bright 6
              (.bright 7
               (.bright 8
                .yes
                .no)
               .no)
              .no)
             .no)
            .no)
           .no))
         .no)
        .no)
       (.dark 9
        (.dark 7
         (.dark 8
          (.dark 10
           (.dark 11
            (.dark 6
             (.dark 5
              (.dark 4
               (.dark 3
                .yes
                (.dark 12
                 .yes
                 .no))
               (.dark 12
                (.dark 13
                 .yes
                 .no)
                .no))
              (.dark 12
               (.dark 13
                (.dark 14
                 .yes
                 .no)
                .no)
               .no))
             (.dark 12
              (.dark 13
               (.dark 14
                (.dark 15
                 .yes
                 .no)
                .no)
               .no)
              .no))
            .no)
           .no)
          .no)
         .no)
        .no))))
    (.dark 1
     (.bright 8
      (.bright 9
       (.bright 10
        (.bright 11
         (.bright 12
          (.bright 13
           (.bright 14
            (.bright 15
             .yes
             (.bright 6
              (.bright 7
               .yes
               .no)
              .no))
            (.bright 5
             (.bright 6
              (.bright 7
               .yes
               .no)
              .no)
             .no))
           (.bright 4
            (.bright 5
             (.bright 6
              (.bright 7
               .yes
               .no)
              .no)
             .no)
            .no))
          (.bright 3
           (.bright 4
            (.bright 5
             (.bright 6
              (.bright 7
               .yes
               .no)
              .no)
             .no)
            .no)
           .no))
         (.bright 2
          (.bright 3
           (.bright 4
            (.bright 5
             (.bright 6
              (.bright 7
               .yes
               .no)
              .no)
             .no)
            .no)
           .no)
          .no))
        .no)
       .no)
      (.dark 8
       (.dark 7
        (.dark 9
         (.dark 6
          (.dark 5
           (.dark 4
            (.dark 3
             (.dark 2
              .yes
              (.dark 10
               (.dark 11
                .yes
                .no)
               .no))
             (.dark 10
              (.dark 11
               (.dark 12
                .yes
                .no)
               .no)
              .no))
            (.dark 10
             (.dark 11
              (.dark 12
               (.dark 13
                .yes
                .no)
               .no)
              .no)
             .no))
           (.dark 10
            (.dark 11
             (.dark 12
              (.dark 13
               (.dark 14
                .yes
                .no)
               .no)
              .no)
             .no)
            .no))
          (.dark 10
           (.dark 11
            (.dark 12
             (.dark 13
              (.dark 14
               (.dark 15
                .yes
                .no)
               .no)
              .no)
             .no)
            .no)
           .no))
         .no)
        .no)
       .no))
     (.bright 8
      (.bright 9
       (.bright 10
        (.bright 11
         (.bright 12
          (.bright 13
           (.bright 14
            (.bright 15
             .yes
             (.bright 6
              (.bright 7
               .yes
               .no)
              .no))
            (.bright 5
             (.bright 6
              (.bright 7
               .yes
               .no)
              .no)
             .no))
           (.bright 4
            (.bright 5
             (.bright 6
              (.bright 7
               .yes
               .no)
              .no)
             .no)
            .no))
          (.bright 3
           (.bright 4
            (.bright 5
             (.bright 6
              (.bright 7
               .yes
               .no)
              .no)
             .no)
            .no)
           .no))
         (.bright 2
          (.bright 3
           (.bright 4
            (.bright 5
             (.bright 6
              (.bright 7
               .yes
               .no)
              .no)
             .no)
            .no)
           .no)
          .no))
        .no)
       .no)
      (.dark 8
       (.dark 7
        (.dark 9
         (.dark 10
          (.dark 6
           (.dark 5
            (.dark 4
             (.dark 3
              (.dark 2
               .yes
               (.dark 11
                .yes
                .no))
              (.dark 11
               (.dark 12
                .yes
                .no)
               .no))
             (.dark 11
              (.dark 12
               (.dark 13
                .yes
                .no)
               .no)
              .no))
            (.dark 11
             (.dark 12
              (.dark 13
               (.dark 14
                .yes
                .no)
               .no)
              .no)
             .no))
           (.dark 11
            (.dark 12
             (.dark 13
              (.dark 14
               (.dark 15
                .yes
                .no)
               .no)
              .no)
             .no)
            .no))
          .no)
         .no)
        .no)
       .no))))
   (.dark 0
    (.bright 1
     (.bright 8
      (.bright 7
       (.bright 9
        (.bright 6
         (.bright 5
          (.bright 4
           (.bright 3
            (.bright 2
             .yes
             (.bright 10
              (.bright 11
               .yes
               .no)
              .no))
            (.bright 10
             (.bright 11
              (.bright 12
               .yes
               .no)
              .no)
             .no))
           (.bright 10
            (.bright 11
             (.bright 12
              (.bright 13
               .yes
               .no)
              .no)
             .no)
            .no))
          (.bright 10
           (.bright 11
            (.bright 12
             (.bright 13
              (.bright 14
               .yes
               .no)
              .no)
             .no)
            .no)
           .no))
         (.bright 10
          (.bright 11
           (.bright 12
            (.bright 13
             (.bright 14
              (.bright 15
               .yes
               .no)
              .no)
             .no)
            .no)
           .no)
          .no))
        .no)
       .no)
      (.dark 8
       (.dark 9
        (.dark 10
         (.dark 11
          (.dark 12
           (.dark 13
            (.dark 14
             (.dark 15
              .yes
              (.dark 6
               (.dark 7
                .yes
                .no)
               .no))
             (.dark 5
              (.dark 6
               (.dark 7
                .yes
                .no)
               .no)
              .no))
            (.dark 4
             (.dark 5
              (.dark 6
               (.dark 7
                .yes
                .no)
               .no)
              .no)
             .no))
           (.dark 3
            (.dark 4
             (.dark 5
              (.dark 6
               (.dark 7
                .yes
                .no)
               .no)
              .no)
             .no)
            .no))
          (.dark 2
           (.dark 3
            (.dark 4
             (.dark 5
              (.dark 6
               (.dark 7
                .yes
                .no)
               .no)
              .no)
             .no)
            .no)
           .no))
         .no)
        .no)
       .no))
     (.dark 1
      (.bright 2
       (.bright 9
        (.bright 7
         (.bright 8
          (.bright 10
           (.bright 6
            (.bright 5
             (.bright 4
              (.bright 3
               .yes
               (.bright 11
                (.bright 12
                 .yes
                 .no)
                .no))
              (.bright 11
               (.bright 12
                (.bright 13
                 .yes
                 .no)
                .no)
               .no))
             (.bright 11
              (.bright 12
               (.bright 13
                (.bright 14
                 .yes
                 .no)
                .no)
               .no)
              .no))
            (.bright 11
             (.bright 12
              (.bright 13
               (.bright 14
                (.bright 15
                 .yes
                 .no)
                .no)
               .no)
              .no)
             .no))
           .no)
          .no)
         .no)
        (.dark 9
         (.dark 10
          (.dark 11
           (.dark 12
            (.dark 13
             (.dark 14
              (.dark 15
               .yes
               (.dark 6
                (.dark 7
                 (.dark 8
                  .yes
                  .no)
                 .no)
                .no))
              (.dark 5
               (.dark 6
                (.dark 7
                 (.dark 8
                  .yes
                  .no)
                 .no)
                .no)
               .no))
             (.dark 4
              (.dark 5
               (.dark 6
                (.dark 7
                 (.dark 8
                  .yes
                  .no)
                 .no)
                .no)
               .no)
              .no))
            (.dark 3
             (.dark 4
              (.dark 5
               (.dark 6
                (.dark 7
                 (.dark 8
                  .yes
                  .no)
                 .no)
                .no)
               .no)
              .no)
             .no))
           .no)
          .no)
         .no))
       (.dark 2
        (.bright 3
         (.bright 10
          (.bright 7
           (.bright 8
            (.bright 9
             (.bright 11
              (.bright 6
               (.bright 5
                (.bright 4
                 .yes
                 (.bright 12
                  (.bright 13
                   .yes
                   .no)
                  .no))
                (.bright 12
                 (.bright 13
                  (.bright 14
                   .yes
                   .no)
                  .no)
                 .no))
               (.bright 12
                (.bright 13
                 (.bright 14
                  (.bright 15
                   .yes
                   .no)
                  .no)
                 .no)
                .no))
              .no)
             .no)
            .no)
           .no)
          (.dark 10
           (.dark 11
            (.dark 12
             (.dark 13
              (.dark 14
               (.dark 15
                .yes
                (.dark 6
                 (.dark 7
                  (.dark 8
                   (.dark 9
                    .yes
                    .no)
                   .no)
                  .no)
                 .no))
               (.dark 5
                (.dark 6
                 (.dark 7
                  (.dark 8
                   (.dark 9
                    .yes
                    .no)
                   .no)
                  .no)
                 .no)
                .no))
              (.dark 4
               (.dark 5
                (.dark 6
                 (.dark 7
                  (.dark 8
                   (.dark 9
                    .yes
                    .no)
                   .no)
                  .no)
                 .no)
                .no)
               .no))
             .no)
            .no)
           .no))
         (.dark 3
          (.bright 4
           (.bright 13
            (.bright 7
             (.bright 8
              (.bright 9
               (.bright 10
                (.bright 11
                 (.bright 12
                  (.bright 6
                   (.bright 5
                    .yes
                    (.bright 14
                     .yes
                     .no))
                   (.bright 14
                    (.bright 15
                     .yes
                     .no)
                    .no))
                  .no)
                 .no)
                .no)
               .no)
              .no)
             .no)
            (.dark 13
             (.bright 11
              (.bright 5
               (.bright 6
                (.bright 7
                 (.bright 8
                  (.bright 9
                   (.bright 10
                    (.bright 12
                     .yes
                     .no)
                    .no)
                   .no)
                  .no)
                 .no)
                .no)
               .no)
              (.dark 11
               (.dark 12
                (.dark 14
                 (.dark 15
                  .yes
                  (.dark 6
                   (.dark 7
                    (.dark 8
                     (.dark 9
                      (.dark 10
                       .yes
                       .no)
                      .no)
                     .no)
                    .no)
                   .no))
                 (.dark 5
                  (.dark 6
                   (.dark 7
                    (.dark 8
                     (.dark 9
                      (.dark 10
                       .yes
                       .no)
                      .no)
                     .no)
                    .no)
                   .no)
                  .no))
                .no)
               .no))
             (.bright 5
              (.bright 6
               (.bright 7
                (.bright 8
                 (.bright 9
                  (.bright 10
                   (.bright 11
                    (.bright 12
                     .yes
                     .no)
                    .no)
                   .no)
                  .no)
                 .no)
                .no)
               .no)
              .no)))
           (.dark 4
            (.bright 5
             (.bright 14
              (.bright 7
               (.bright 8
                (.bright 9
                 (.bright 10
                  (.bright 11
                   (.bright 12
                    (.bright 13
                     (.bright 6
                      .yes
                      (.bright 15
                       .yes
                       .no))
                     .no)
                    .no)
                   .no)
                  .no)
                 .no)
                .no)
               .no)
              (.dark 14
               (.bright 12
                (.bright 6
                 (.bright 7
                  (.bright 8
                   (.bright 9
                    (.bright 10
                     (.bright 11
                      (.bright 13
                       .yes
                       .no)
                      .no)
                     .no)
                    .no)
                   .no)
                  .no)
                 .no)
                (.dark 12
                 (.dark 13
                  (.dark 15
                   .yes
                   (.dark 6
                    (.dark 7
                     (.dark 8
                      (.dark 9
                       (.dark 10
                        (.dark 11
                         .yes
                         .no)
                        .no)
                       .no)
                      .no)
                     .no)
                    .no))
                  .no)
                 .no))
               (.bright 6
                (.bright 7
                 (.bright 8
                  (.bright 9
                   (.bright 10
                    (.bright 11
                     (.bright 12
                      (.bright 13
                       .yes
                       .no)
                      .no)
                     .no)
                    .no)
                   .no)
                  .no)
                 .no)
                .no)))
             (.dark 5
              (.bright 6
               (.dark 15
                (.bright 13
                 (.bright 7
                  (.bright 8
                   (.bright 9
                    (.bright 10
                     (.bright 11
                      (.bright 12
                       (.bright 14
                        .yes
                        .no)
                       .no)
                      .no)
                     .no)
                    .no)
                   .no)
                  .no)
                 (.dark 13
                  (.dark 14
                   .yes
                   .no)
                  .no))
                (.bright 7
                 (.bright 8
                  (.bright 9
                   (.bright 10
                    (.bright 11
                     (.bright 12
                      (.bright 13
                       (.bright 14
                        .yes
                        .no)
                       .no)
                      .no)
                     .no)
                    .no)
                   .no)
                  .no)
                 .no))
               (.dark 6
                (.bright 7
                 (.bright 14
                  (.bright 8
                   (.bright 9
                    (.bright 10
                     (.bright 11
                      (.bright 12
                       (.bright 13
                        (.bright 15
                         .yes
                         .no)
                        .no)
                       .no)
                      .no)
                     .no)
                    .no)
                   .no)
                  (.dark 14
                   (.dark 15
                    .yes
                    .no)
                   .no))
                 (.dark 7
                  (.dark 8
                   .yes
                   (.dark 15
                    .yes
                    .no))
                  (.dark 14
                   (.dark 15
                    .yes
                    .no)
                   .no)))
                (.bright 13
                 (.bright 7
                  (.bright 8
                   (.bright 9
                    (.bright 10
                     (.bright 11
                      (.bright 12
                       (.bright 14
                        (.bright 15
                         .yes
                         .no)
                        .no)
                       .no)
                      .no)
                     .no)
                    .no)
                   .no)
                  .no)
                 (.dark 13
                  (.dark 14
                   (.dark 15
                    .yes
                    .no)
                   .no)
                  .no))))
              (.bright 12
               (.bright 7
                (.bright 8
                 (.bright 9
                  (.bright 10
                   (.bright 11
                    (.bright 13
                     (.bright 14
                      (.bright 6
                       .yes
                       (.bright 15
                        .yes
                        .no))
                      .no)
                     .no)
                    .no)
                   .no)
                  .no)
                 .no)
                .no)
               (.dark 12
                (.dark 13
                 (.dark 14
                  (.dark 15
                   .yes
                   (.dark 6
                    (.dark 7
                     (.dark 8
                      (.dark 9
                       (.dark 10
                        (.dark 11
                         .yes
                         .no)
                        .no)
                       .no)
                      .no)
                     .no)
                    .no))
                  .no)
                 .no)
                .no))))
            (.bright 11
             (.bright 7
              (.bright 8
               (.bright 9
                (.bright 10
                 (.bright 12
                  (.bright 13
                   (.bright 6
                    (.bright 5
                     .yes
                     (.bright 14
                      .yes
                      .no))
                    (.bright 14
                     (.bright 15
                      .yes
                      .no)
                     .no))
                   .no)
                  .no)
                 .no)
                .no)
               .no)
              .no)
             (.dark 11
              (.dark 12
               (.dark 13
                (.dark 14
                 (.dark 15
                  .yes
                  (.dark 6
                   (.dark 7
                    (.dark 8
                     (.dark 9
                      (.dark 10
                       .yes
                       .no)
                      .no)
                     .no)
                    .no)
                   .no))
                 (.dark 5
                  (.dark 6
                   (.dark 7
                    (.dark 8
                     (.dark 9
                      (.dark 10
                       .yes
                       .no)
                      .no)
                     .no)
                    .no)
                   .no)
                  .no))
                .no)
               .no)
              .no))))
          (.bright 10
           (.bright 7
            (.bright 8
             (.bright 9
              (.bright 11
               (.bright 12
                (.bright 6
                 (.bright 5
                  (.bright 4
                   .yes
                   (.bright 13
                    .yes
                    .no))
                  (.bright 13
                   (.bright 14
                    .yes
                    .no)
                   .no))
                 (.bright 13
                  (.bright 14
                   (.bright 15
                    .yes
                    .no)
                   .no)
                  .no))
                .no)
               .no)
              .no)
             .no)
            .no)
           (.dark 10
            (.dark 11
             (.dark 12
              (.dark 13
               (.dark 14
                (.dark 15
                 .yes
                 (.dark 6
                  (.dark 7
                   (.dark 8
                    (.dark 9
                     .yes
                     .no)
                    .no)
                   .no)
                  .no))
                (.dark 5
                 (.dark 6
                  (.dark 7
                   (.dark 8
                    (.dark 9
                     .yes
                     .no)
                    .no)
                   .no)
                  .no)
                 .no))
               (.dark 4
                (.dark 5
                 (.dark 6
                  (.dark 7
                   (.dark 8
                    (.dark 9
                     .yes
                     .no)
                    .no)
                   .no)
                  .no)
                 .no)
                .no))
              .no)
             .no)
            .no))))
        (.bright 9
         (.bright 7
          (.bright 8
           (.bright 10
            (.bright 11
             (.bright 6
              (.bright 5
               (.bright 4
                (.bright 3
                 .yes
                 (.bright 12
                  .yes
                  .no))
                (.bright 12
                 (.bright 13
                  .yes
                  .no)
                 .no))
               (.bright 12
                (.bright 13
                 (.bright 14
                  .yes
                  .no)
                 .no)
                .no))
              (.bright 12
               (.bright 13
                (.bright 14
                 (.bright 15
                  .yes
                  .no)
                 .no)
                .no)
               .no))
             .no)
            .no)
           .no)
          .no)
         (.dark 9
          (.dark 10
           (.dark 11
            (.dark 12
             (.dark 13
              (.dark 14
               (.dark 15
                .yes
                (.dark 6
                 (.dark 7
                  (.dark 8
                   .yes
                   .no)
                  .no)
                 .no))
               (.dark 5
                (.dark 6
                 (.dark 7
                  (.dark 8
                   .yes
                   .no)
                  .no)
                 .no)
                .no))
              (.dark 4
               (.dark 5
                (.dark 6
                 (.dark 7
                  (.dark 8
                   .yes
                   .no)
                  .no)
                 .no)
                .no)
               .no))
             (.dark 3
              (.dark 4
               (.dark 5
                (.dark 6
                 (.dark 7
                  (.dark 8
                   .yes
                   .no)
                  .no)
                 .no)
                .no)
               .no)
              .no))
            .no)
           .no)
          .no))))
      (.bright 8
       (.bright 7
        (.bright 9
         (.bright 10
          (.bright 6
           (.bright 5
            (.bright 4
             (.bright 3
              (.bright 2
               .yes
               (.bright 11
                .yes
                .no))
              (.bright 11
               (.bright 12
                .yes
                .no)
               .no))
             (.bright 11
              (.bright 12
               (.bright 13
                .yes
                .no)
               .no)
              .no))
            (.bright 11
             (.bright 12
              (.bright 13
               (.bright 14
                .yes
                .no)
               .no)
              .no)
             .no))
           (.bright 11
            (.bright 12
             (.bright 13
              (.bright 14
               (.bright 15
                .yes
                .no)
               .no)
              .no)
             .no)
            .no))
          .no)
         .no)
        .no)
       (.dark 8
        (.dark 9
         (.dark 10
          (.dark 11
           (.dark 12
            (.dark 13
             (.dark 14
              (.dark 15
               .yes
               (.dark 6
                (.dark 7
                 .yes
                 .no)
                .no))
              (.dark 5
               (.dark 6
                (.dark 7
                 .yes
                 .no)
                .no)
               .no))
             (.dark 4
              (.dark 5
               (.dark 6
                (.dark 7
                 .yes
                 .no)
                .no)
               .no)
              .no))
            (.dark 3
             (.dark 4
              (.dark 5
               (.dark 6
                (.dark 7
                 .yes
                 .no)
                .no)
               .no)
              .no)
             .no))
           (.dark 2
            (.dark 3
             (.dark 4
              (.dark 5
               (.dark 6
                (.dark 7
                 .yes
                 .no)
                .no)
               .no)
              .no)
             .no)
            .no))
          .no)
         .no)
        .no))))
    (.bright 7
     (.bright 8
      (.bright 9
       (.bright 6
        (.bright 5
         (.bright 4
          (.bright 3
           (.bright 2
            (.bright 1
             .yes
             (.bright 10
              .yes
              .no))
            (.bright 10
             (.bright 11
              .yes
              .no)
             .no))
           (.bright 10
            (.bright 11
             (.bright 12
              .yes
              .no)
             .no)
            .no))
          (.bright 10
           (.bright 11
            (.bright 12
             (.bright 13
              .yes
              .no)
             .no)
            .no)
           .no))
         (.bright 10
          (.bright 11
           (.bright 12
            (.bright 13
             (.bright 14
              .yes
              .no)
             .no)
            .no)
           .no)
          .no))
        (.bright 10
         (.bright 11
          (.bright 12
           (.bright 13
            (.bright 14
             (.bright 15
              .yes
              .no)
             .no)
            .no)
           .no)
          .no)
         .no))
       .no)
      .no)
     (.dark 7
      (.dark 8
       (.dark 9
        (.dark 6
         (.dark 5
          (.dark 4
           (.dark 3
            (.dark 2
             (.dark 1
              .yes
              (.dark 10
               .yes
               .no))
             (.dark 10
              (.dark 11
               .yes
               .no)
              .no))
            (.dark 10
             (.dark 11
              (.dark 12
               .yes
               .no)
              .no)
             .no))
           (.dark 10
            (.dark 11
             (.dark 12
              (.dark 13
               .yes
               .no)
              .no)
             .no)
            .no))
          (.dark 10
           (.dark 11
            (.dark 12
             (.dark 13
              (.dark 14
               .yes
               .no)
              .no)
             .no)
            .no)
           .no))
         (.dark 10
          (.dark 11
           (.dark 12
            (.dark 13
             (.dark 14
              (.dark 15
               .yes
               .no)
              .no)
             .no)
            .no)
           .no)
          .no))
        .no)
       .no)
      .no)))

/-- The decision tree of `fast9_detect`, `src/fast/fast_9.c:3015-5915`, one node per `if`, in the order of
the source. -/
def fast9DetectTree : FastTree :=
  .bright 0
   (.bright 1
    (.bright 2
     (.bright 3
      (.bright 4
       (.bright 5
        (.bright 6
         (.bright 7
          (.bright 8
           .yes
           (.bright 15
            .yes
            .no))
          (.dark 7
           (.bright 14
            (.bright 15
             .yes
             .no)
            (.dark 14
             (.dark 8
              (.dark 9
               (.dark 10
                (.dark 11
                 (.dark 12
                  (.dark 13
                   (.dark 15
                    .yes
                    .no)
                   .no)
                  .no)
                 .no)
                .no)
               .no)
              .no)
             .no))
           (.bright 14
            (.bright 15
             .yes
             .no)
            .no)))
         (.dark 6
          (.bright 15
           (.bright 13
            (.bright 14
             .yes
             .no)
            (.dark 13
             (.dark 7
              (.dark 8
               (.dark 9
                (.dark 10
                 (.dark 11
                  (.dark 12
                   (.dark 14
                    .yes
                    .no)
                   .no)
                  .no)
                 .no)
                .no)
               .no)
              .no)
             .no))
           (.dark 7
            (.dark 8
             (.dark 9
              (.dark 10
               (.dark 11
                (.dark 12
                 (.dark 13
                  (.dark 14
                   .yes
                   .no)
                  .no)
                 .no)
                .no)
               .no)
              .no)
             .no)
            .no))
          (.bright 13
           (.bright 14
            (.bright 15
             .yes
             .no)
            .no)
           (.dark 13
            (.dark 7
             (.dark 8
              (.dark 9
               (.dark 10
                (.dark 11
                 (.dark 12
                  (.dark 14
                   (.dark 15
                    .yes
                    .no)
                   .no)
                  .no)
                 .no)
                .no)
               .no)
              .no)
             .no)
            .no))))
        (.dark 5
         (.bright 14
          (.bright 12
           (.bright 13
            (.bright 15
             .yes
             (.bright 6
              (.bright 7
               (.bright 8
                (.bright 9
                 (.bright 10
                  (.bright 11
                   .yes
                   .no)
                  .no)
                 .no)
                .no)
               .no)
              .no))
            .no)
           (.dark 12
            (.dark 6
             (.dark 7
              (.dark 8
               (.dark 9
                (.dark 10
                 (.dark 11
                  (.dark 13
                   .yes
                   .no)
                  .no)
                 .no)
                .no)
               .no)
              .no)
             .no)
            .no))
          (.dark 14
           (.dark 7
            (.dark 8
             (.dark 9
              (.dark 10
               (.dark 11
                (.dark 12
                 (.dark 13
                  (.dark 6
                   .yes
                   (.dark 15
                    .yes
                    .no))
                  .no)
                 .no)
                .no)
               .no)
              .no)
             .no)
            .no)
           (.dark 6
            (.dark 7
             (.dark 8
              (.dark 9
               (.dark 10
                (.dark 11
                 (.dark 12
                  (.dark 13
                   .yes
                   .no)
                  .no)
                 .no)
                .no)
               .no)
              .no)
             .no)
            .no)))
         (.bright 12
          (.bright 13
           (.bright 14
            (.bright 15
             .yes
             (.bright 6
              (.bright 7
               (.bright 8
                (.bright 9
                 (.bright 10
                  (.bright 11
                   .yes
                   .no)
                  .no)
                 .no)
                .no)
               .no)
              .no))
            .no)
           .no)
          (.dark 12
           (.dark 7
            (.dark 8
             (.dark 9
              (.dark 10
               (.dark 11
                (.dark 13
                 (.dark 14
                  (.dark 6
                   .yes
                   (.dark 15
                    .yes
                    .no))
                  .no)
                 .no)
                .no)
               .no)
              .no)
             .no)
            .no)
           .no))))
       (.dark 4
        (.bright 13
         (.bright 11
          (.bright 12
           (.bright 14
            (.bright 15
             .yes
             (.bright 6
              (.bright 7
               (.bright 8
                (.bright 9
                 (.bright 10
                  .yes
                  .no)
                 .no)
                .no)
               .no)
              .no))
            (.bright 5
             (.bright 6
              (.bright 7
               (.bright 8
                (.bright 9
                 (.bright 10
                  .yes
                  .no)
                 .no)
                .no)
               .no)
              .no)
             .no))
           .no)
          (.dark 11
           (.dark 5
            (.dark 6
             (.dark 7
              (.dark 8
               (.dark 9
                (.dark 10
                 (.dark 12
                  .yes
                  .no)
                 .no)
                .no)
               .no)
              .no)
             .no)
            .no)
           .no))
         (.dark 13
          (.dark 7
           (.dark 8
            (.dark 9
             (.dark 10
              (.dark 11
               (.dark 12
                (.dark 6
                 (.dark 5
                  .yes
                  (.dark 14
                   .yes
                   .no))
                 (.dark 14
                  (.dark 15
                   .yes
                   .no)
                  .no))
                .no)
               .no)
              .no)
             .no)
            .no)
           .no)
          (.dark 5
           (.dark 6
            (.dark 7
             (.dark 8
              (.dark 9
               (.dark 10
                (.dark 11
                 (.dark 12
                  .yes
                  .no)
                 .no)
                .no)
               .no)
              .no)
             .no)
            .no)
           .no)))
        (.bright 11
         (.bright 12
          (.bright 13
           (.bright 14
            (.bright 15
             .yes
             (.bright 6
              (.bright 7
               (.bright 8
                (.bright 9
                 (.bright 10
                  .yes
                  .no)
                 .no)
                .no)
               .no)
              .no))
            (.bright 5
             (.bright 6
              (.bright 7
               (.bright 8
                (.bright 9
                 (.bright 10
                  .yes
                  .no)
                 .no)
                .no)
               .no)
              .no)
             .no))
           .no)
          .no)
         (.dark 11
          (.dark 7
           (.dark 8
            (.dark 9
             (.dark 10
              (.dark 12
               (.dark 13
                (.dark 6
                 (.dark 5
                  .yes
                  (.dark 14
                   .yes
                   .no))
                 (.dark 14
                  (.dark 15
                   .yes
                   .no)
                  .no))
                .no)
               .no)
              .no)
             .no)
            .no)
           .no)
          .no))))
      (.dark 3
       (.bright 10
        (.bright 11
         (.bright 12
          (.bright 13
           (.bright 14
            (.bright 15
             .yes
             (.bright 6
              (.bright 7
               (.bright 8
                (.bright 9
                 .yes
                 .no)
                .no)
               .no)
              .no))
            (.bright 5
             (.bright 6
              (.bright 7
               (.bright 8
                (.bright 9
                 .yes
                 .no)
                .no)
               .no)
              .no)
             .no))
           (.bright 4
            (.bright 5
             (.bright 6
              (.bright 7
               (.bright 8
                (.bright 9
                 .yes
                 .no)
                .no)
               .no)
              .no)
             .no)
            .no))
          .no)
         .no)
        (.dark 10
         (.dark 7
          (.dark 8
           (.dark 9
            (.dark 11
             (.dark 6
              (.dark 5
               (.dark 4
                .yes
                (.dark 12
                 (.dark 13
                  .yes
                  .no)
                 .no))
               (.dark 12
                (.dark 13
                 (.dark 14
                  .yes
                  .no)
                 .no)
                .no))
              (.dark 12
               (.dark 13
                (.dark 14
                 (.dark 15
                  .yes
                  .no)
                 .no)
                .no)
               .no))
             .no)
            .no)
           .no)
          .no)
         .no))
       (.bright 10
        (.bright 11
         (.bright 12
          (.bright 13
           (.bright 14
            (.bright 15
             .yes
             (.bright 6
              (.bright 7
               (.bright 8
                (.bright 9
                 .yes
                 .no)
                .no)
               .no)
              .no))
            (.bright 5
             (.bright 6
              (.bright 7
               (.bright 8
                (.bright 9
                 .yes
                 .no)
                .no)
               .no)
              .no)
             .no))
           (.bright 4
            (.bright 5
             (.bright 6
              (.bright 7
               (.bright 8
                (.bright 9
                 .yes
                 .no)
                .no)
               .no)
              .no)
             .no)
            .no))
          .no)
         .no)
        (.dark 10
         (.dark 7
          (.dark 8
           (.dark 9
            (.dark 11
             (.dark 12
              (.dark 6
               (.dark 5
                (.dark 4
                 .yes
                 (.dark 13
                  .yes
                  .no))
                (.dark 13
                 (.dark 14
                  .yes
                  .no)
                 .no))
               (.dark 13
                (.dark 14
                 (.dark 15
                  .yes
                  .no)
                 .no)
                .no))
              .no)
             .no)
            .no)
           .no)
          .no)
         .no))))
     (.dark 2
      (.bright 9
       (.bright 10
        (.bright 11
         (.bright 12
          (.bright 13
           (.bright 14
            (.bright 15
             .yes
             (.bright 6
              (.bright 7
               (.bright 8
                .yes
                .no)
               .no)
              .no))
            (.bright 5
             (.bright 6
              (.bright 7
               (.bright 8
                .yes
                .no)
               .no)
              .no)
             .no))
           (.bright 4
            (.bright 5
             (.bright 6
              (.bright 7
               (.bright 8
                .yes
                .no)
               .no)
              .no)
             .no)
            .no))
          (.bright 3
           (.bright 4
            (.bright 5
             (.bright 6
              (.bright 7
               (.bright 8
                .yes
                .no)
               .no)
              .no)
             .no)
            .no)
           .no))
         .no)
        .no)
       (.dark 9
        (.dark 7
         (.dark 8
          (.dark 10
           (.dark 6
            (.dark 5
             (.dark 4
              (.dark 3
               .yes
               (.dark 11
                (.dark 12
                 .yes
                 .no)
                .no))
              (.dark 11
               (.dark 12
                (.dark 13
                 .yes
                 .no)
                .no)
               .no))
             (.dark 11
              (.dark 12
               (.dark 13
                (.dark 14
                 .yes
                 .no)
                .no)
               .no)
              .no))
            (.dark 11
             (.dark 12
              (.dark 13
               (.dark 14
                (.dark 15
                 .yes
                 .no)
                .no)
               .no)
              .no)
             .no))
           .no)
          .no)
         .no)
        .no))
      (.bright 9
       (.bright 10
        (.bright 11
         (.bright 12
          (.bright 13
           (.bright 14
            (.bright 15
             .yes
             (.bright 6
              (.bright 7
               (.bright 8
                .yes
                .no)
               .no)
              .no))
            (.bright 5
             (.bright 6
              (.bright 7
               (.bright 8
                .yes
                .no)
               .no)
              .no)
             .no))
           (.bright 4
            (.bright 5
             (.bright 6
              (.bright 7
               (.bright 8
                .yes
                .no)
               .no)
              .no)
             .no)
            .no))
          (.bright 3
           (.bright 4
            (.bright 5
             (.bright 6
              (.bright 7
               (.bright 8
                .yes
                .no)
               .no)
              .no)
             .no)
            .no)
           .no))
         .no)
        .no)
       (.dark 9
        (.dark 7
         (.dark 8
          (.dark 10
           (.dark 11
            (.dark 6
             (.dark 5
              (.dark 4
               (.dark 3
                .yes
                (.dark 12
                 .yes
                 .no))
               (.dark 12
                (.dark 13
                 .yes
                 .no)
                .no))
              (.dark 12
               (.dark 13
                (.dark 14
                 .yes
                 .no)
                .no)
               .no))
             (.dark 12
              (.dark 13
               (.dark 14
                (.dark 15
                 .yes
                 .no)
                .no)
               .no)
              .no))
            .no)
           .no)
          .no)
         .no)
        .no))))
    (.dark 1
     (.bright 8
      (.bright 9
       (.bright 10
        (.bright 11
         (.bright 12
          (.bright 13
           (.bright 14
            (.bright 15
             .yes
             (.bright 6
              (.bright 7
               .yes
               .no)
              .no))
            (.bright 5
             (.bright 6
              (.bright 7
               .yes
               .no)
              .no)
             .no))
           (.bright 4
            (.bright 5
             (.bright 6
              (.bright 7
               .yes
               .no)
              .no)
             .no)
            .no))
          (.bright 3
           (.bright 4
            (.bright 5
             (.bright 6
              (.bright 7
               .yes
               .no)
              .no)
             .no)
            .no)
           .no))
         (.bright 2
          (.bright 3
           (.bright 4
            (.bright 5
             (.bright 6
              (.bright 7
               .yes
               .no)
              .no)
             .no)
            .no)
           .no)
          .no))
        .no)
       .no)
      (.dark 8
       (.dark 7
        (.dark 9
         (.dark 6
          (.dark 5
           (.dark 4
            (.dark 3
             (.dark 2
              .yes
              (.dark 10
               (.dark 11
                .yes
                .no)
               .no))
             (.dark 10
              (.dark 11
               (.dark 12
                .yes
                .no)
               .no)
              .no))
            (.dark 10
             (.dark 11
              (.dark 12
               (.dark 13
                .yes
                .no)
               .no)
              .no)
             .no))
           (.dark 10
            (.dark 11
             (.dark 12
              (.dark 13
               (.dark 14
                .yes
                .no)
               .no)
              .no)
             .no)
            .no))
          (.dark 10
           (.dark 11
            (.dark 12
             (.dark 13
              (.dark 14
               (.dark 15
                .yes
                .no)
               .no)
              .no)
             .no)
            .no)
           .no))
         .no)
        .no)
       .no))
     (.bright 8
      (.bright 9
       (.bright 10
        (.bright 11
         (.bright 12
          (.bright 13
           (.bright 14
            (.bright 15
             .yes
             (.bright 6
              (.bright 7
               .yes
               .no)
              .no))
            (.bright 5
             (.bright 6
              (.bright 7
               .yes
               .no)
              .no)
             .no))
           (.bright 4
            (.bright 5
             (.bright 6
              (.bright 7
               .yes
               .no)
              .no)
             .no)
            .no))
          (.bright 3
           (.bright 4
            (.bright 5
             (.bright 6
              (.bright 7
               .yes
               .no)
              .no)
             .no)
            .no)
           .no))
         (.bright 2
          (.bright 3
           (.bright 4
            (.bright 5
             (.bright 6
              (.bright 7
               .yes
               .no)
              .no)
             .no)
            .no)
           .no)
          .no))
        .no)
       .no)
      (.dark 8
       (.dark 7
        (.dark 9
         (.dark 10
          (.dark 6
           (.dark 5
            (.dark 4
             (.dark 3
              (.dark 2
               .yes
               (.dark 11
                .yes
                .no))
              (.dark 11
               (.dark 12
                .yes
                .no)
               .no))
             (.dark 11
              (.dark 12
               (.dark 13
                .yes
                .no)
               .no)
              .no))
            (.dark 11
             (.dark 12
              (.dark 13
               (.dark 14
                .yes
                .no)
               .no)
              .no)
             .no))
           (.dark 11
            (.dark 12
             (.dark 13
              (.dark 14
               (.dark 15
                .yes
                .no)
               .no)
              .no)
             .no)
            .no))
          .no)
         .no)
        .no)
       .no))))
   (.dark 0
    (.bright 1
     (.bright 8
      (.bright 7
       (.bright 9
        (.bright 6
         (.bright 5
          (.bright 4
           (.bright 3
            (.bright 2
             .yes
             (.bright 10
              (.bright 11
               .yes
               .no)
              .no))
            (.bright 10
             (.bright 11
              (.bright 12
               .yes
               .no)
              .no)
             .no))
           (.bright 10
            (.bright 11
             (.bright 12
              (.bright 13
               .yes
               .no)
              .no)
             .no)
            .no))
          (.bright 10
           (.bright 11
            (.bright 12
             (.bright 13
              (.bright 14
               .yes
               .no)
              .no)
             .no)
            .no)
           .no))
         (.bright 10
          (.bright 11
           (.bright 12
            (.bright 13
             (.bright 14
              (.bright 15
               .yes
               .no)
              .no)
             .no)
            .no)
           .no)
          .no))
        .no)
       .no)
      (.dark 8
       (.dark 9
        (.dark 10
         (.dark 11
          (.dark 12
           (.dark 13
            (.dark 14
             (.dark 15
              .yes
              (.dark 6
               (.dark 7
                .yes
                .no)
               .no))
             (.dark 5
              (.dark 6
               (.dark 7
                .yes
                .no)
               .no)
              .no))
            (.dark 4
             (.dark 5
              (.dark 6
               (.dark 7
                .yes
                .no)
               .no)
              .no)
             .no))
           (.dark 3
            (.dark 4
             (.dark 5
              (.dark 6
               (.dark 7
                .yes
                .no)
               .no)
              .no)
             .no)
            .no))
          (.dark 2
           (.dark 3
            (.dark 4
             (.dark 5
              (.dark 6
               (.dark 7
                .yes
                .no)
               .no)
              .no)
             .no)
            .no)
           .no))
         .no)
        .no)
       .no))
     (.dark 1
      (.bright 2
       (.bright 9
        (.bright 7
         (.bright 8
          (.bright 10
           (.bright 6
            (.bright 5
             (.bright 4
              (.bright 3
               .yes
               (.bright 11
                (.bright 12
                 .yes
                 .no)
                .no))
              (.bright 11
               (.bright 12
                (.bright 13
                 .yes
                 .no)
                .no)
               .no))
             (.bright 11
              (.bright 12
               (.bright 13
                (.bright 14
                 .yes
                 .no)
                .no)
               .no)
              .no))
            (.bright 11
             (.bright 12
              (.bright 13
               (.bright 14
                (.bright 15
                 .yes
                 .no)
                .no)
               .no)
              .no)
             .no))
           .no)
          .no)
         .no)
        (.dark 9
         (.dark 10
          (.dark 11
           (.dark 12
            (.dark 13
             (.dark 14
              (.dark 15
               .yes
               (.dark 6
                (.dark 7
                 (.dark 8
                  .yes
                  .no)
                 .no)
                .no))
              (.dark 5
               (.dark 6
                (.dark 7
                 (.dark 8
                  .yes
                  .no)
                 .no)
                .no)
               .no))
             (.dark 4
              (.dark 5
               (.dark 6
                (.dark 7
                 (.dark 8
                  .yes
                  .no)
                 .no)
                .no)
               .no)
              .no))
            (.dark 3
             (.dark 4
              (.dark 5
               (.dark 6
                (.dark 7
                 (.dark 8
                  .yes
                  .no)
                 .no)
                .no)
               .no)
              .no)
             .no))
           .no)
          .no)
         .no))
       (.dark 2
        (.bright 3
         (.bright 10
          (.bright 7
           (.bright 8
            (.bright 9
             (.bright 11
              (.bright 6
               (.bright 5
                (.bright 4
                 .yes
                 (.bright 12
                  (.bright 13
                   .yes
                   .no)
                  .no))
                (.bright 12
                 (.bright 13
                  (.bright 14
                   .yes
                   .no)
                  .no)
                 .no))
               (.bright 12
                (.bright 13
                 (.bright 14
                  (.bright 15
                   .yes
                   .no)
                  .no)
                 .no)
                .no))
              .no)
             .no)
            .no)
           .no)
          (.dark 10
           (.dark 11
            (.dark 12
             (.dark 13
              (.dark 14
               (.dark 15
                .yes
                (.dark 6
                 (.dark 7
                  (.dark 8
                   (.dark 9
                    .yes
                    .no)
                   .no)
                  .no)
                 .no))
               (.dark 5
                (.dark 6
                 (.dark 7
                  (.dark 8
                   (.dark 9
                    .yes
                    .no)
                   .no)
                  .no)
                 .no)
                .no))
              (.dark 4
               (.dark 5
                (.dark 6
                 (.dark 7
                  (.dark 8
                   (.dark 9
                    .yes
                    .no)
                   .no)
                  .no)
                 .no)
                .no)
               .no))
             .no)
            .no)
           .no))
         (.dark 3
          (.bright 4
           (.bright 13
            (.bright 7
             (.bright 8
              (.bright 9
               (.bright 10
                (.bright 11
                 (.bright 12
                  (.bright 6
                   (.bright 5
                    .yes
                    (.bright 14
                     .yes
                     .no))
                   (.bright 14
                    (.bright 15
                     .yes
                     .no)
                    .no))
                  .no)
                 .no)
                .no)
               .no)
              .no)
             .no)
            (.dark 13
             (.bright 11
              (.bright 5
               (.bright 6
                (.bright 7
                 (.bright 8
                  (.bright 9
                   (.bright 10
                    (.bright 12
                     .yes
                     .no)
                    .no)
                   .no)
                  .no)
                 .no)
                .no)
               .no)
              (.dark 11
               (.dark 12
                (.dark 14
                 (.dark 15
                  .yes
                  (.dark 6
                   (.dark 7
                    (.dark 8
                     (.dark 9
                      (.dark 10
                       .yes
                       .no)
                      .no)
                     .no)
                    .no)
                   .no))
                 (.dark 5
                  (.dark 6
                   (.dark 7
                    (.dark 8
                     (.dark 9
                      (.dark 10
                       .yes
                       .no)
                      .no)
                     .no)
                    .no)
                   .no)
                  .no))
                .no)
               .no))
             (.bright 5
              (.bright 6
               (.bright 7
                (.bright 8
                 (.bright 9
                  (.bright 10
                   (.bright 11
                    (.bright 12
                     .yes
                     .no)
                    .no)
                   .no)
                  .no)
                 .no)
                .no)
               .no)
              .no)))
           (.dark 4
            (.bright 5
             (.bright 14
              (.bright 7
               (.bright 8
                (.bright 9
                 (.bright 10
                  (.bright 11
                   (.bright 12
                    (.bright 13
                     (.bright 6
                      .yes
                      (.bright 15
                       .yes
                       .no))
                     .no)
                    .no)
                   .no)
                  .no)
                 .no)
                .no)
               .no)
              (.dark 14
               (.bright 12
                (.bright 6
                 (.bright 7
                  (.bright 8
                   (.bright 9
                    (.bright 10
                     (.bright 11
                      (.bright 13
                       .yes
                       .no)
                      .no)
                     .no)
                    .no)
                   .no)
                  .no)
                 .no)
                (.dark 12
                 (.dark 13
                  (.dark 15
                   .yes
                   (.dark 6
                    (.dark 7
                     (.dark 8
                      (.dark 9
                       (.dark 10
                        (.dark 11
                         .yes
                         .no)
                        .no)
                       .no)
                      .no)
                     .no)
                    .no))
                  .no)
                 .no))
               (.bright 6
                (.bright 7
                 (.bright 8
                  (.bright 9
                   (.bright 10
                    (.bright 11
                     (.bright 12
                      (.bright 13
                       .yes
                       .no)
                      .no)
                     .no)
                    .no)
                   .no)
                  .no)
                 .no)
                .no)))
             (.dark 5
              (.bright 6
               (.dark 15
                (.bright 13
                 (.bright 7
                  (.bright 8
                   (.bright 9
                    (.bright 10
                     (.bright 11
                      (.bright 12
                       (.bright 14
                        .yes
                        .no)
                       .no)
                      .no)
                     .no)
                    .no)
                   .no)
                  .no)
                 (.dark 13
                  (.dark 14
                   .yes
                   .no)
                  .no))
                (.bright 7
                 (.bright 8
                  (.bright 9
                   (.bright 10
                    (.bright 11
                     (.bright 12
                      (.bright 13
                       (.bright 14
                        .yes
                        .no)
                       .no)
                      .no)
                     .no)
                    .no)
                   .no)
                  .no)
                 .no))
               (.dark 6
                (.bright 7
                 (.bright 14
                  (.bright 8
                   (.bright 9
                    (.bright 10
                     (.bright 11
                      (.bright 12
                       (.bright 13
                        (.bright 15
                         .yes
                         .no)
                        .no)
                       .no)
                      .no)
                     .no)
                    .no)
                   .no)
                  (.dark 14
                   (.dark 15
                    .yes
                    .no)
                   .no))
                 (.dark 7
                  (.dark 8
                   .yes
                   (.dark 15
                    .yes
                    .no))
                  (.dark 14
                   (.dark 15
                    .yes
                    .no)
                   .no)))
                (.bright 13
                 (.bright 7
                  (.bright 8
                   (.bright 9
                    (.bright 10
                     (.bright 11
                      (.bright 12
                       (.bright 14
                        (.bright 15
                         .yes
                         .no)
                        .no)
                       .no)
                      .no)
                     .no)
                    .no)
                   .no)
                  .no)
                 (.dark 13
                  (.dark 14
                   (.dark 15
                    .yes
                    .no)
                   .no)
                  .no))))
              (.bright 12
               (.bright 7
                (.bright 8
                 (.bright 9
                  (.bright 10
                   (.bright 11
                    (.bright 13
                     (.bright 14
                      (.bright 6
                       .yes
                       (.bright 15
                        .yes
                        .no))
                      .no)
                     .no)
                    .no)
                   .no)
                  .no)
                 .no)
                .no)
               (.dark 12
                (.dark 13
                 (.dark 14
                  (.dark 15
                   .yes
                   (.dark 6
                    (.dark 7
                     (.dark 8
                      (.dark 9
                       (.dark 10
                        (.dark 11
                         .yes
                         .no)
                        .no)
                       .no)
                      .no)
                     .no)
                    .no))
                  .no)
                 .no)
                .no))))
            (.bright 11
             (.bright 7
              (.bright 8
               (.bright 9
                (.bright 10
                 (.bright 12
                  (.bright 13
                   (.bright 6
                    (.bright 5
                     .yes
                     (.bright 14
                      .yes
                      .no))
                    (.bright 14
                     (.bright 15
                      .yes
                      .no)
                     .no))
                   .no)
                  .no)
                 .no)
                .no)
               .no)
              .no)
             (.dark 11
              (.dark 12
               (.dark 13
                (.dark 14
                 (.dark 15
                  .yes
                  (.dark 6
                   (.dark 7
                    (.dark 8
                     (.dark 9
                      (.dark 10
                       .yes
                       .no)
                      .no)
                     .no)
                    .no)
                   .no))
                 (.dark 5
                  (.dark 6
                   (.dark 7
                    (.dark 8
                     (.dark 9
                      (.dark 10
                       .yes
                       .no)
                      .no)
                     .no)
                    .no)
                   .no)
                  .no))
                .no)
               .no)
              .no))))
          (.bright 10
           (.bright 7
            (.bright 8
             (.bright 9
              (.bright 11
               (.bright 12
                (.bright 6
                 (.bright 5
                  (.bright 4
                   .yes
                   (.bright 13
                    .yes
                    .no))
                  (.bright 13
                   (.bright 14
                    .yes
                    .no)
                   .no))
                 (.bright 13
                  (.bright 14
                   (.bright 15
                    .yes
                    .no)
                   .no)
                  .no))
                .no)
               .no)
              .no)
             .no)
            .no)
           (.dark 10
            (.dark 11
             (.dark 12
              (.dark 13
               (.dark 14
                (.dark 15
                 .yes
                 (.dark 6
                  (.dark 7
                   (.dark 8
                    (.dark 9
                     .yes
                     .no)
                    .no)
                   .no)
                  .no))
                (.dark 5
                 (.dark 6
                  (.dark 7
                   (.dark 8
                    (.dark 9
                     .yes
                     .no)
                    .no)
                   .no)
                  .no)
                 .no))
               (.dark 4
                (.dark 5
                 (.dark 6
                  (.dark 7
                   (.dark 8
                    (.dark 9
                     .yes
                     .no)
                    .no)
                   .no)
                  .no)
                 .no)
                .no))
              .no)
             .no)
            .no))))
        (.bright 9
         (.bright 7
          (.bright 8
           (.bright 10
            (.bright 11
             (.bright 6
              (.bright 5
               (.bright 4
                (.bright 3
                 .yes
                 (.bright 12
                  .yes
                  .no))
                (.bright 12
                 (.bright 13
                  .yes
                  .no)
                 .no))
               (.bright 12
                (.bright 13
                 (.bright 14
                  .yes
                  .no)
                 .no)
                .no))
              (.bright 12
               (.bright 13
                (.bright 14
                 (.bright 15
                  .yes
                  .no)
                 .no)
                .no)
               .no))
             .no)
            .no)
           .no)
          .no)
         (.dark 9
          (.dark 10
           (.dark 11
            (.dark 12
             (.dark 13
              (.dark 14
               (.dark 15
                .yes
                (.dark 6
                 (.dark 7
                  (.dark 8
                   .yes
                   .no)
                  .no)
                 .no))
               (.dark 5
                (.dark 6
                 (.dark 7
                  (.dark 8
                   .yes
                   .no)
                  .no)
                 .no)
                .no))
              (.dark 4
               (.dark 5
                (.dark 6
                 (.dark 7
                  (.dark 8
                   .yes
                   .no)
                  .no)
                 .no)
                .no)
               .no))
             (.dark 3
              (.dark 4
               (.dark 5
                (.dark 6
                 (.dark 7
                  (.dark 8
                   .yes
                   .no)
                  .no)
                 .no)
                .no)
               .no)
              .no))
            .no)
           .no)
          .no))))
      (.bright 8
       (.bright 7
        (.bright 9
         (.bright 10
          (.bright 6
           (.bright 5
            (.bright 4
             (.bright 3
              (.bright 2
               .yes
               (.bright 11
                .yes
                .no))
              (.bright 11
               (.bright 12
                .yes
                .no)
               .no))
             (.bright 11
              (.bright 12
               (.bright 13
                .yes
                .no)
               .no)
              .no))
            (.bright 11
             (.bright 12
              (.bright 13
               (.bright 14
                .yes
                .no)
               .no)
              .no)
             .no))
           (.bright 11
            (.bright 12
             (.bright 13
              (.bright 14
               (.bright 15
                .yes
                .no)
               .no)
              .no)
             .no)
            .no))
          .no)
         .no)
        .no)
       (.dark 8
        (.dark 9
         (.dark 10
          (.dark 11
           (.dark 12
            (.dark 13
             (.dark 14
              (.dark 15
               .yes
               (.dark 6
                (.dark 7
                 .yes
                 .no)
                .no))
              (.dark 5
               (.dark 6
                (.dark 7
                 .yes
                 .no)
                .no)
               .no))
             (.dark 4
              (.dark 5
               (.dark 6
                (.dark 7
                 .yes
                 .no)
                .no)
               .no)
              .no))
            (.dark 3
             (.dark 4
              (.dark 5
               (.dark 6
                (.dark 7
                 .yes
                 .no)
                .no)
               .no)
              .no)
             .no))
           (.dark 2
            (.dark 3
             (.dark 4
              (.dark 5
               (.dark 6
                (.dark 7
                 .yes
                 .no)
                .no)
               .no)
              .no)
             .no)
            .no))
          .no)
         .no)
        .no))))
    (.bright 7
     (.bright 8
      (.bright 9
       (.bright 6
        (.bright 5
         (.bright 4
          (.bright 3
           (.bright 2
            (.bright 1
             .yes
             (.bright 10
              .yes
              .no))
            (.bright 10
             (.bright 11
              .yes
              .no)
             .no))
           (.bright 10
            (.bright 11
             (.bright 12
              .yes
              .no)
             .no)
            .no))
          (.bright 10
           (.bright 11
            (.bright 12
             (.bright 13
              .yes
              .no)
             .no)
            .no)
           .no))
         (.bright 10
          (.bright 11
           (.bright 12
            (.bright 13
             (.bright 14
              .yes
              .no)
             .no)
            .no)
           .no)
          .no))
        (.bright 10
         (.bright 11
          (.bright 12
           (.bright 13
            (.bright 14
             (.bright 15
              .yes
              .no)
             .no)
            .no)
           .no)
          .no)
         .no))
       .no)
      .no)
     (.dark 7
      (.dark 8
       (.dark 9
        (.dark 6
         (.dark 5
          (.dark 4
           (.dark 3
            (.dark 2
             (.dark 1
              .yes
              (.dark 10
               .yes
               .no))
             (.dark 10
              (.dark 11
               .yes
               .no)
              .no))
            (.dark 10
             (.dark 11
              (.dark 12
               .yes
               .no)
              .no)
             .no))
           (.dark 10
            (.dark 11
             (.dark 12
              (.dark 13
               .yes
               .no)
              .no)
             .no)
            .no))
          (.dark 10
           (.dark 11
            (.dark 12
             (.dark 13
              (.dark 14
               .yes
               .no)
              .no)
             .no)
            .no)
           .no))
         (.dark 10
          (.dark 11
           (.dark 12
            (.dark 13
             (.dark 14
              (.dark 15
               .yes
               .no)
              .no)
             .no)
            .no)
           .no)
          .no))
        .no)
       .no)
      .no)))

end Nx
