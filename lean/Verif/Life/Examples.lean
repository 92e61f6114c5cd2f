import Verif.Life.Props

/-! # The lifetimes of the examples (C120) -/

namespace Verif.Life

/-- The steps of `example/hybrid/foolib/build.main.cpp:27-36` for one toolchain that is chosen on the command
line (`on`) or not; `n` objects have been created before. -/
def foolibSteps (n : Nat) (on : Bool) : List Ev :=
  [.create .toolchain false, .create (.info n) false, .create (.target n) false] ++
    if on then
      [.enter, .call (n + 1) true [], .leave,
       .enter, .call (n + 2) true [], .call (n + 2) false [n + 1], .prepare (n + 2) true, .leave,
       .build (n + 2)]
    else []

/-- `example/hybrid/foolib/build.main.cpp:10-49`. -/
def foolibScript (clean gcc msvc : Bool) : List Ev :=
  .enter :: (if clean then [.enter, .leave] else []) ++ foolibSteps 0 gcc ++ foolibSteps 3 msvc ++
    [.run [], .create (.plugin [2, 5]) false, .call 6 true []]

/-- `example/hybrid/generic/build.cpp:26-67`: the toolchain is in `Storage`
(`toolchain_aggregate.cpp:30-40`), the program takes directories and the name of the library, and the
callback after the build reads both targets and the toolchain. -/
def genericScript (build test : Bool) : List Ev :=
  [.enter, .create .toolchain true, .create (.target 0) false, .create (.target 0) false] ++
    (if build then
      [.enter, .call 0 false [], .leave,
       .enter, .enter, .call 1 true [], .leave, .prepare 1 true, .leave, .build 1,
       .enter, .call 2 true [], .call 2 false [1], .call 2 false [1], .prepare 2 true, .leave, .build 2,
       .call 2 false [1]] ++ (if test then [.test 2 []] else [])
    else []) ++
    [.run [], .enter, .call 1 true [], .call 2 false [], .leave, .create (.plugin [1, 2]) false, .call 3 true []]

/-- **C120, the examples** use every object in its lifetime, whatever is chosen on the command line, until
the end of `main` and of the program. -/
theorem C120_samples (a b c : Bool) :
    (exec {} (foolibScript a b c ++ [.leave, .clear])).isSome = true ∧
      (exec {} (genericScript a b ++ [.leave, .clear])).isSome = true := by
  cases a <;> cases b <;> cases c <;> decide +kernel

/-- A callback that makes a target of its own, with sources, is refused after every script. -/
example (p : List Ev) (tc : Nat) : exec {} (p ++ [.enter, .create (.target tc) false] ++
    [.call (created p) true [], .prepare (created p) true] ++ [.build (created p), .leave, .run []]) = none :=
  C120_callback_false p tc _ (by simp)

/-- With the storage it is defined. -/
example : (exec {} ([.enter, .create .toolchain false] ++ [.enter, .create (.target 0) true, .prepare 1 true,
    .build 1, .leave, .run []])).isSome = true :=
  C120_storage (p := [.enter, .create .toolchain false]) (tc := 0) (by decide +kernel)
    ⟨.toolchain, [], .inl ⟨⟨[.enter], rfl, rfl⟩, open_nil⟩⟩

/-- A toolchain that is local to a callback is no better, though the target is in the storage. -/
example : exec {} [.enter, .enter, .create .toolchain false, .create (.target 0) true, .prepare 1 true, .build 1,
    .leave, .run []] = none := by decide +kernel

/-- An object from which a target has taken something may be gone before the run. -/
example : (exec {} [.enter, .create .toolchain false, .create (.target 0) false, .enter, .create (.info 0) false,
    .call 2 true [], .call 1 false [2], .leave, .prepare 1 true, .build 1, .run []]).isSome = true := by
  decide +kernel

/-- The vectors for the output of a test must live until the run, a plugin its targets until it generates. -/
example : exec {} [.enter, .create .toolchain false, .create (.target 0) false, .prepare 1 true, .build 1,
      .enter, .create .data false, .test 1 [2], .leave, .run []] = none ∧
    exec {} [.enter, .create .toolchain false, .create (.plugin []) false, .enter, .create (.target 0) false,
      .keep 1 2, .leave, .run [1]] = none := by decide +kernel

/-- The rule, for a script with a callback. -/
example : (exec {} [.create .toolchain false, .enter, .leave, .build 0]).isSome = true := by
  refine C120_rule ?_ ?_ ?_
  · intro p e s h x hx
    match p, h with
    | [], h => cases h; cases hx
    | [_], h => cases h; cases hx
    | [_, _], h => cases h; cases hx
    | [_, _, _], h => cases h; cases hx; decide
    | _ :: _ :: _ :: _ :: p, h => simp at h
  · intro a o b h
    match a, h with
    | [], h =>
      cases h
      intro b1 b2 hb
      match b1, hb with
      | [], _ => simp
      | [_], hb => cases hb; decide
      | [_, _], hb => cases hb; decide
      | [_, _, _], hb => cases hb; decide
      | _ :: _ :: _ :: _ :: b1, hb => simp at hb
    | _ :: [], h => simp at h
    | _ :: _ :: [], h => simp at h
    | _ :: _ :: _ :: [], h => simp at h
    | _ :: _ :: _ :: _ :: a, h => simp at h
  · intro a o b h
    match a, h with
    | [], h => simp at h
    | _ :: [], h => simp at h
    | _ :: _ :: [], h => simp at h
    | _ :: _ :: _ :: [], h => simp at h
    | _ :: _ :: _ :: _ :: a, h => simp at h

end Verif.Life
