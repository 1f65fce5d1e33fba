# Formal model of movement_primitives — design

Everything is Lean 4 (4.33.0) + Mathlib, in `/verif/lean/Verif`. The source under study is `/repo`
(dfki-ric/movement_primitives at the pinned commit); it was read as text and never run.

## 1. Layout

| directory | content |
|---|---|
| `Verif/Py.lean`, `Verif/Np.lean` | Python/numpy semantics needed by the code: exceptions with persistent state, `while` loops, `np.arange`, `np.gradient`, ... |
| `Verif/Model/*.lean` | the model: one definition per modelled function, each citing file and lines |
| `Verif/Spec/*.lean` | small specifications, written without using the model |
| `Verif/Lemmas/*.lean` | helper lemmas |
| `Verif/Props/*.lean` | the property theorems `Cxx_...`, each followed by an `example`/witness that its hypotheses are satisfiable |

## 2. Trusted base

* Lean's kernel; Mathlib's definitions of real numbers, `exp`, `log`, `arccos`, matrices, positive
  semidefiniteness, derivatives. Axioms used by the theorems: `propext`, `Classical.choice`, `Quot.sound`
  (checked with `#print axioms` / vcheck). No own axioms, no `sorry`, no `native_decide`, no `bv_decide`.
* **Floats are modelled by real numbers.** Rounding, overflow, NaN and infinities are not modelled, except
  where a theorem explicitly models the exceptional case (division by zero, uninitialised memory, singular
  matrix, non-terminating loop), and except for the computations with time that control the loops
  (`Model/FloatClock.lean`, C79 and C80) and for `step` of SpringDamper and DMP
  (`Model/FloatStep.lean`, C106), which are modelled with correct rounding to doubles without overflow, without
  fused multiply-add, with `x ** 2` accurate to `2**-52`, and with arbitrary values of the forcing term.
* numpy/scipy/pytransform3d/json are not part of the repository. The behaviour used is modelled from their
  documentation: element-wise arithmetic and broadcasting, `np.arange` (length `ceil((stop-start)/step)`),
  `np.gradient`, `np.diff`, `np.linspace`, `ravel` returning a view of a contiguous array, slicing returning
  views, `np.linalg.inv`/`solve` (exact inverse, raising on singular matrices), `np.linalg.pinv` (the
  Moore-Penrose inverse, given by the four Penrose equations; its cut-off is not modelled), quaternion
  functions of pytransform3d (Hamilton product, conjugate, exponential and logarithm).
* Arrays have the data type float64, except in `Model/Dtypes*` (C100), where an array is an array of integers or of
  floats: assigning floats to elements of an array of integers truncates, `+=` of floats raises TypeError, typed Cython
  buffers raise ValueError.
* Python semantics: a raised exception keeps all assignments made before; a `while` loop returns iff some
  iterate violates its guard; arguments are passed by reference (modelled only in `Heap` models, where
  aliasing is the property).
* The correspondence between the Lean definitions and the Python/Cython text is by reading (each definition
  cites its lines); the models were attacked with seeded bugs, see `seeded/LOG.jsonl`.

## 3. What is modelled and what is not

| file of `/repo/movement_primitives` | model | parts |
|---|---|---|
| `base.py`, `utils.py` | `Model/Base` | constructor, `configure`, `n_steps_open_loop`, `check_1d_array_length`, `ensure_1d_array` |
| `dmp/_canonical_system.py` | `Model/Canonical` | all |
| `dmp/_forcing_term.py` | `Model/Forcing` | all |
| `dmp/_base.py` | `Model/Base`, `Model/Dmp` | `reset`, `get_weights`, `set_weights` |
| `dmp/_dmp.py` | `Model/DmpStep`, `Model/Dmp`, `Model/Imitate` | all step functions, the class, learning, open loop |
| `dmp_fast.pyx` | `Model/DmpStep`, `Model/CartesianDmp`, `Model/DualCartesian`, `Model/Quat`, `Model/Coupling` | all step functions, quaternion functions, obstacle avoidance |
| `dmp/_dmp_with_final_velocity.py` | `Model/FinalVelocity` | all |
| `dmp/_cartesian_dmp.py` | `Model/Quat`, `Model/CartesianDmp` | all |
| `dmp/_dual_cartesian_dmp.py` | `Model/DualCartesian`, `Model/DualImitate` | all |
| `dmp/_state_following_dmp.py` | `Model/StateFollowing`, `Model/StepArguments` | all |
| `dmp/_coupling_terms.py` | `Model/Coupling`, `Model/CouplingTrajectory` | all |
| `dmp_potential_field.py` | `Model/PotentialField`, `Model/PotentialFieldPlot` | `potential_field_2d`, `plot_potential_field_2d` (a figure is a list of drawing commands) |
| `dmp_to_state_space_distribution.py` | `Model/StateSpaceDistribution` | parameters, propagation, cache file (not the Gaussian fit of the `gmr` package) |
| `promp.py` | `Model/Promp`, `Model/PrompEM`, `Model/PrompArrays` | all; `PrompArrays` tells which arrays are shared between objects and their callers |
| `spring_damper.py` | `Model/SpringDamper` | all |
| `minimum_jerk_trajectory.py`, `data/_minimum_jerk.py` | `Model/MinJerk` | all |
| `data/_toy_1d.py` | `Model/Toy` | all |
| `data/_lasa.py` | `Model/Lasa` | download (file system with crashes and concurrent processes), conversion |
| `io.py` | `Model/Io`, `Model/IoClasses` | JSON and YAML (not pickle) |
| `kinematics.py` | `Model/Kinematics`, `Model/KinematicsState` | transforms, joint clipping, `create_chain`, forward, pose distance, all inverse kinematics functions |
| `plot.py` | `Model/Plot` | all (a figure is a list of drawing commands) |
| `visualization.py` | `Model/Visualization` | `plot_pointcloud`, `ToggleGeometry` |
| `testing/simulation.py` | `Model/Simulation` | all three simulations, `KinematicsChain`, `analyze_robot`, pose conversions, key frames |
| references between arrays | `Model/Heap`, `Model/HeapClasses`, `Model/HeapMinJerk` | eight classes of movement primitives as objects in memory |
| data types of arrays | `Model/Dtypes`, `Model/DtypesSpring`, `Model/DtypesPose` | arrays of integers given to DMPs (also Cartesian and dual-arm DMPs) and spring-damper systems: which assignments truncate, which operations raise (C100) |

In all models but `Heap` an array is a value; C70 proves that this is right as long as the caller does not share
arrays that an object overwrites.

Not modelled: pixels, styles and colour maps of plots, `to_ellipsoid` of
`visualization.py`, physics of pybullet (an arbitrary transition function), its windows, debug texts, real-time mode and
loading of robots in `testing/simulation.py`, loading of URDF files in `kinematics.py` (a robot is given by its joints and fixed transforms, from which
`create_chain` builds a chain), the numerical optimiser `scipy.optimize.minimize` (an arbitrary function
that respects its bounds), random number generation (arbitrary values in the documented range; C119: independent, normally distributed values), text formats of
JSON/YAML/pickle (the tree that is written is the tree that is read), the network, printing, types and shapes that numpy would reject where a comment says so.

## 4. Axioms

`axioms.txt` lists the axioms of every theorem `Cxx_...` as printed by Lean. They are among `propext`,
`Classical.choice` and `Quot.sound`.

## 5. Findings

Where the code does not do what its documentation or a user would expect, this is proved as well:

* `C01_goal_phase_above_one`: a final phase above 1 is accepted and makes the phase grow.
* `C05_start_time_ignored`: `start_t` is ignored when the centers after the first one are placed. A forcing term that starts at `start_t = execution_time / (n_weights - 1)` (accepted by the constructor) has two equal centers, so that the code divides by zero when it computes the first width.
* `C07_unstable_beyond_limit`: the condition cannot be dropped. For any gains, execution time and `dt = int_dt` with `int_dt² α β + 2 int_dt α τ ≥ 4 τ²` there is a DMP without weights and an infinite execution of the Euler method whose velocity never becomes small.
* `C100_finding_cartesian_integer_start`: With a start made of integers `open_loop` raises an exception, and so does the first `step` after `reset`, whatever the step functions.
* `C100_finding_cartesian_rounding`: Without the condition on the time there would be rounding: before the start of the movement (the clock has been set to a negative time) the Python Euler step functions return the given state, and after `reset` with a start made of integers it is rounded toward zero, without an exception.
* `C100_finding_dual_integer_start`: With a start (or start velocity) made of integers the first `step` raises an exception, with the Python and with the Cython step function.
* `C100_finding_euler_half_way`: The exception of the Python Euler integrator is raised half way: if only the start position is made of integers, the velocity of the object has been changed already, to the velocity after the first sub-step (here: the only one).
* `C100_finding_fv_half_way`: The exception is raised half way: if only the start position is made of integers, the velocity of the object has been changed already, to the velocity after the first sub-step (here: the only one), while its position is still the start position.
* `C100_finding_fv_imitated_cannot_run`: After imitating a demonstration made of integers the DMP cannot be executed.
* `C100_finding_fv_integer_start`: With a start position or velocity made of integers, `step` and `open_loop` raise TypeError.
* `C100_finding_fv_slow`: A demonstration made of integers whose velocities are slower than one unit per unit of time is imitated as if it started and ended at rest: start and goal velocities and accelerations of the DMP are zero, whatever the final velocity of the demonstration.
* `C100_finding_imitate_differs`: Rounding makes a difference: the weights learned from the movement `0, 1` at the times `0, 4` are different for integers and floating-point numbers.
* `C100_finding_imitated_cannot_run`: A DMP that has imitated a demonstration made of integers cannot be executed at all, neither with `open_loop` nor (after `reset` or before the first step) with `step`, until start and goal are replaced by arrays of floating-point numbers.
* `C100_finding_integer_goal`: With the Cython step functions (one of which is the default) an array of integers in any of the attributes raises ValueError, even if the step function does not use it; position and velocity are not changed.
* `C100_finding_integer_start`: A DMP that was configured with a start position (or velocity) made of integers cannot be executed: the first step raises TypeError or, with the Cython step functions, ValueError, for all goals, weights and coupling terms. The clock has been advanced nevertheless.
* `C100_finding_open_loop_integer_goal`: With the Cython step functions a goal made of integers is sufficient.
* `C100_finding_open_loop_integer_start`: A DMP that was configured with a start position made of integers cannot be executed with `open_loop` either, whatever the step function.
* `C100_finding_orientation_open_loop_rounded`: With a start orientation made of integers every orientation of the trajectory that `open_loop` returns is rounded to integers.
* `C100_finding_orientation_step_rounded`: With a start orientation made of integers the first `step` does not raise an exception, but it returns an orientation that is rounded to integers.
* `C100_finding_orientation_zero`: A new object with the start orientation `np.array([1, 0, 0, 0])` and any other goal orientation: the trajectory of `open_loop` consists of the start orientation followed by zero vectors, which do not represent orientations. No exception is raised.
* `C100_finding_slow`: A slow demonstration made of integers (less than one unit per unit of time everywhere, e.g. a robot whose positions are recorded in whole millimetres and whose time stamps are milliseconds) is misunderstood: all velocities and accelerations are rounded to zero without a warning, so that the learned weights are the best ones for staying at rest in each of the demonstrated positions.
* `C100_finding_spring_damper_half_way`: The exception is raised half way: if only the start position is made of integers, the velocity of the object has been changed already, to the velocity after the first sub-step (here: the only one), while its position is the one that was passed to `step`.
* `C100_finding_spring_damper_integer_start`: With a start position made of integers `open_loop` and the first `step` raise TypeError, with a start velocity made of integers the first `step` does.
* `C102_rk4`: With the Runge-Kutta methods the time step influences the movement: `int_dt` is not used. There is a DMP with default parameters whose trajectory changes if the time step is doubled.
* `C103_finding_variance`: The complete update that the code computes can make the demonstrations much less likely, because the sum of the squared errors is not divided by the number of observed values but by a number that grows with the mean weights. A ProMP with one dimension and one weight (mean 99, variance 1) imitates the demonstration 99.79, 98.7 with one iteration: the mean remains 99, the learned noise variance is smaller than 0.01 although the first position deviates by 0.79 from the mean, and the demonstration is less likely than before.
* `C104_orientation_jump`: movements of a `CartesianDMP` do not depend continuously on the goal orientation. Even with zero rotational weights and critically damped gains there are two goal orientations, arbitrarily close to each other, such that the trajectories computed by `open_loop` differ by 90 degrees or more at some time: close to a rotation by 180 degrees the way to the goal changes its direction.
* `C106_stalls`: the default `SpringDamper` does not always reach its goal exactly. From position `1 - 2 ** -45` with velocity `2 ** -46` the goal 1 is never reached: all calls of `step` (up to a billion) return the same position and the same velocity, which is not 0.
* `C107_depends_on_int_dt`: where a coupled movement ends depends on `int_dt`. Two objects that differ in `int_dt` converge to different positions unless the goals have the desired displacement.
* `C107_displacement_error`: the desired displacement is attained only if the goals have it already. Otherwise the fraction `αβ / (αβ + (lf0 + lf1) G)` of the conflict remains.
* `C107_python_differs_from_cython`: the Python and the Cython function for the Euler method do not end at the same position. The same object, executed with the one and with the other, converges to different positions of the follower unless the goals have the desired displacement.
* `C107_reported_velocity`: with the Python function for the Euler method and with the Runge-Kutta methods a follower that stands still reports a velocity different from 0 unless the goals have the desired displacement. The Cython function for the Euler method reports 0.
* `C111_initial_velocity_lost`: A movement with an initial velocity is not reproduced, whatever the number of samples and weights: `imitate` configures the initial velocity 0, so that the velocity of the execution at its start is wrong by the full initial velocity of the movement.
* `C113_finding_exaggerate_ignored`: The documentation of `exaggerate_arrows` is "multiply arrow sizes by this factor". The arrows that are shown are the same for all positive factors, because the scale of the plot is multiplied by the same factor.
* `C113_finding_single_tick`: With one tick and an obstacle the plot raises an IndexError after it has drawn the green and the red arrow.
* `C114_finding_half_turn`: At an orientation that is turned by exactly 180 degrees from the goal the sign matters: with the goal `g` and with the goal `-g`, which are the same orientation, the (Cython) DMP starts to turn in opposite directions.
* `C116_finding_units_of_positions`: Units of positions matter: after one iteration with one demonstration, starting from a new ProMP, the covariance of the weights is the same for all demonstrated positions, for example for a movement in metres and for the same movement in millimetres. (The distribution from which learning starts has variance 1 in whatever unit is used.)
* `C11_disagree_before_start`: for a step that ends at or before `start_t` the Python version leaves the state alone, the Cython version overwrites it with the start state before it integrates.
* `C11_disagree_with_coupling`: with a velocity coupling term the two Euler implementations disagree. With the constant coupling velocity 1 and otherwise trivial dynamics the Python version leaves the position at 0 in the first step, the Cython version moves to 1.
* `C18_differ_with_start_velocity`: with a start velocity, stepping and `open_loop` differ. A DMP without gains and weights that starts in 0 with velocity 1 is at position 1 after one step of length 1, while `open_loop` stays at 0.
* `C19_start_change_ignored`: Changing `start_y` after the first step without `reset` has no effect on the result of `step` and on the state of the object (apart from the attribute itself), unless smooth scaling is used or the Cython Euler step is called at a time that is not positive.
* `C19_start_change_with_smooth_scaling`: with smooth scaling the start position still enters the differential equation, so changing it after the first step without `reset` does change the running movement.
* `C22_cartesian_broadcast`: a vector of length `4 m` is silently accepted. Its last `m` entries are used for all three rotation components, so the weights that are read are not those that were written.
* `C22_cartesian_not_atomic`: for every other length of at least `3 m` the call raises ValueError after the position weights have been overwritten.
* `C22_cartesian_raises_iff`: Exactly which lengths raise: all except `6 m` and `4 m`.
* `C22_cartesian_row`: a vector of length `m` raises ValueError after all position weights have been overwritten with it.
* `C23_get_weights_is_live_finding`: For `DMP`, `DMPWithFinalVelocity` and `DualCartesianDMP` the array that `get_weights` returned always contains the current weights: after any later history, not the weights of the moment when it was returned.
* `C23_restore_fails_finding`: Saving and restoring fails for `DMP`, `DMPWithFinalVelocity` and `DualCartesianDMP`: after `w = get_weights(); set_weights(z); set_weights(w)` the weights are those of `z`, and `w` has become equal to `z`.
* `C23_write_changes_object_finding`: A caller who writes into the array that `get_weights` returned changes the weights of the object (and nothing else of it).
* `C24_cartesian_not_atomic`: a failing assignment stores the invalid value.
* `C24_failure_not_atomic`: a failing assignment is not atomic. For every DMP and every `execution_time <= 0` the assignment raises ValueError, but the invalid value is stored while the forcing term still belongs to the old one.
* `C25_configure_not_atomic`: a failing `configure` may already have applied some arguments: with a valid start position and a goal of wrong length the call raises ValueError but the start position is changed.
* `C27_time_shift_changes_weights`: the learned weights depend on the origin of the time axis. The same movement, demonstrated at times `0, 1` and `1/2, 3/2`, results in different weights (although the forces to be learned are the same), because the centers of the basis functions ignore the start time.
* `C39_2d_head_on`: When the velocity is parallel to the direction to the obstacle, the acceleration is parallel to the velocity, so on a collision course it points towards the obstacle.
* `C39_3d_head_on`: When the velocity is parallel to the direction to the obstacle, the rotation degenerates to the identity: the acceleration is parallel to the velocity, so on a collision course it points towards the obstacle.
* `C40_configure_ignored`: Once a step was made, `configure` (any change of start and goal) has no effect on the following steps until `reset` is called.
* `C40_goal_missed`: If `execution_time` is not a multiple of `dt`, no row reaches the goal in a component in which start and goal differ.
* `C40_no_movement`: For `execution_time < 2 * dt`, in particular `execution_time = dt`, all rows are the start.
* `C41_time_scale_finding`: Times of `via_points` are not those of `mean_trajectory`: `via_points` measures time relative to a movement of duration 1, queries measure it relative to their largest entry. After asking for position 1 at time 1, the mean of a ProMP that is queried at times 0, 1, 2 is not 1 at time 1.
* `C43_covariance_rows_finding`: `via_points` documents `y_conditional_cov` as a covariance matrix, but it takes row `idx` of the array for via point `idx` and adds that row to *every* row of the innovation matrix. For the identity as covariance of a two-dimensional ProMP with one weight per dimension and via point 0 (row `[1, 0]`): the variance of dimension 1 becomes 0 although the position was given with variance 1, and the covariance of the weights is not symmetric. `condition_position` with the identity gives variance 1/2 in both dimensions.
* `C45_real_velocity`: As function of the query time itself the mean trajectory has the derivative `mean_velocities / max(T)`: `mean_velocities` is not the velocity unless the largest query time is 1 or the velocity is zero.
* `C46_all_methods_modify_times`: All methods that get times as argument modify them in the same way, also `weights`, the method that learns from a demonstration.
* `C46_errors`: Integer times are refused: the division in place raises TypeError. An empty array raises ValueError.
* `C46_query_modifies_times`: Queries change the array of times that the caller passed: afterwards it is divided by its largest entry. It is unchanged exactly if the largest entry is 1.
* `C50_interval_finding`: the promised search interval is not enforced. There is a chain, a sound minimiser that even finds the exact solution, and a call with interval 1/10 around the joint angle 0 that returns the joint angle 1.
* `C52_learned_promp_yaml_unreadable`: A ProMP after `imitate` is written to a YAML file that `read_yaml` refuses: the attribute `variance` is a `np.float64`.
* `C52_minimum_jerk_lists`: A `MinimumJerkTrajectory` after its first step is restored except for `X` and `Xd`, which are arrays in the original and lists of lists in the loaded object: they are `None` in a new object, so `read_json` does not know that they were arrays.
* `C52_nested_tuple_yaml`: `write_yaml` converts tuples to lists only in the object itself: if an object that is an attribute has a tuple, the file is written but cannot be read. JSON has no such restriction (`C52_tuple_becomes_list`).
* `C52_tuple_becomes_list`: "Basic data types" of the documentation do not include tuples: an attribute that is a tuple is restored as a list (and not at all from YAML, if it belongs to an object that is an attribute).
* `C53_wrong_without_smooth_scaling`: Without smooth scaling (the default) the field is wrong in every dimension in which start and goal differ.
* `C54_execution_time_ignored`: The execution time of a sampled parameter vector is ignored: only the first `12 m + 28` entries influence the trajectory.
* `C54_fast_demonstrations_ignored`: Demonstrations with a mean time step below 5 ms have no influence on the distribution.
* `C54_truncated_accepted_finding`: If the program is killed between two rows, every later call accepts the rows that were written as the complete set of trajectories.
* `C54_truncated_raises_finding`: If it is killed within a row (but the first), every later call raises a ValueError, whatever its arguments are: the file is never replaced.
* `C55_concurrent_calls`: two processes call `load_lasa`. The second one executes its first 3 operations (it opens the file for writing) between the extraction of the first process and its renaming, and is killed. Then `lasa_data` exists and is incomplete, and no later call repairs it.
* `C57_goal_ignored`: Neither `step` nor `open_loop` depends on the goal.
* `C57_uninitialised_underflow`: The previous theorem needs an exponential function without underflow. With one that returns 0 for all arguments below some bound, as floating point numbers do, there are contents of the uninitialised memory for which all activations of a single via point vanish at each time after the start, and their normalisation is 0/0.
* `C58_state_following_overwritten_finding`: For `StateFollowingDMP` every step overwrites the arrays that the step before has returned: they contain the result of the later step. A trajectory that is collected by appending the returned arrays to a list consists of copies of the last state.
* `C58_state_following_witness`: It does happen: the array returned by the first step contains `y1`, and after the second step it contains `y2`.
* `C63_open_loop_starts_at_overwritten_row_finding`: In particular every trajectory that `DMP.open_loop` generates afterwards starts at the overwritten position instead of the start of the demonstration.
* `C63_start_follows_demonstration_finding`: After a successful `imitate(T, Y)`, for `DMP`, `DMPWithFinalVelocity`, `CartesianDMP` and `DualCartesianDMP`: if the caller overwrites the first row of `Y`, then this becomes the start of the learned movement; if they overwrite the last row, it becomes the goal.
* `C64_runs_ahead`: with the `dt` of the DMP as `dt` of the coupling object (as in `examples/external_dependencies/plot_imitate_panel_rh5.py`) and a smaller integration step `int_dt`, the coupling object runs through the demonstration at least twice as fast as the DMP.
* `C64_second_execution`: a second execution of a DMP that passes the same states gets other coupling terms, since nothing but `imitate` resets the clock of the coupling object. Here an execution has one step: the first call pulls the right end effector to where the demonstration starts, the second one (first call of the second execution) to where it ends.
* `C66_joint_limits_finding`: without random restarts the joint limits are not respected, because the interval replaces them. There are a chain with limits -1 and 2, a sound minimiser and two poses for which the second row is 2.1.
* `C66_solver_ignored_finding`: with random restarts and without initial joint angles, the argument `solver` has no effect.
* `C69_times_ignore_dt`: consecutive times of the result differ by `n_steps / (n_steps - 1)`, not by the returned time between steps `dt`.
* `C70_min_jerk_start_shared`: The discipline is necessary: an object keeps a reference to the start that was handed over. A caller who writes into this array before the first step (or the first one after `reset`) moves the start of the trajectory.
* `C74_cartesian_ignores_final_velocity`: 
* `C74_dmp_ignores_final_velocity`: Whatever final velocity, final acceleration and initial acceleration are configured, `step` and `open_loop` give the same results (the objects afterwards differ in nothing but these attributes).
* `C74_dual_ignores_final_velocity`: 
* `C74_spring_damper_ignores_final_velocity`: 
* `C74_spring_damper_orientation_ignores_final_velocity`: 
* `C74_state_following_ignores_goal`: Not even the goal has an effect on `step` and `open_loop`: the trajectory is determined by the viapoints.
* `C75_dead_zone`: the tolerance is not an artefact. An orientation at rest whose distance from the goal is below the threshold is never left.
* `C77_coupling_velocity`: The velocity of a coupling term is added once per sub-step and is not multiplied with the step size, so that its effect grows when `int_dt` gets smaller. Without forcing term and with a constant coupling velocity `w` the Python Euler method rests at a distance of `(τ / int_dt - α) w / (α β)` from the goal, and the Cython method at `(τ / int_dt) w / (α β)`. Neither has a limit for `int_dt → 0`.
* `C78_cartesian_lookup_is_late`: the orientation integrator's name is looked up late. With a step size `dt = 0` an unknown name is reported as a ZeroDivisionError, whereas an unknown name of the position integrator is a ValueError (`C78_cartesian_unknown`).
* `C79_hangs`: for `int_dt < 2 ** -54 * last_t` the loop never ends: adding `int_dt` does not change the time.
* `C80_arange_one_step_more`: with `dt` = 0.9 and `run_t` = 5.4 = 6 * 0.9 (rounded to doubles), the open loops that use `np.arange` return 8 rows, one step more than expected, and `DualCartesianDMP.open_loop` returns 7 rows.
* `C80_loop_one_step_more`: with `dt` = 1.7 and `run_t` = 11.9 = 7 * 1.7 (rounded to doubles), `DualCartesianDMP.open_loop` returns 9 rows, one step more than expected, since the sum of seven times 1.7 is less than 11.9 in double precision. The other open loops return 8 rows.
* `C81_first_order_only`: The Runge-Kutta method is only of order one: there are a DMP with default gains and a time `T` such that the error of the position at `T` is at least `c dt` for all small `dt = T / N`.
* `C82_before_start`: For a step that ends at or before `start_t` the Python function leaves the state unchanged; the Cython function integrates from the start state.
* `C82_precomputed`: A precomputed coupling is added to the coupling term by the Python function and ignored by the Cython function if there is a coupling term. One sub-step of the Python function with a precomputed coupling is one sub-step of the Cython function with the sum of both as coupling term.
* `C82_precomputed_difference`: The disagreement in numbers: after one sub-step the angular velocity of the Python function is larger than the one of the Cython function by the effect of the precomputed coupling.
* `C83_cartesian`: The orientation of a new `CartesianDMP` is the zero vector, which does not represent a rotation; the first row of every `open_loop` of an object that was not configured is therefore not a pose.
* `C83_orientations`: Likewise for `SpringDamperOrientation` and `DualCartesianDMP`.
* `C84_promp_underflow`: `condition_position(y_mean, t=t)` with the default `t_max=1`, at a time of 5 or later and with at least 10 weights per dimension: all basis functions underflow and the code computes 0 / 0.
* `C84_underflow`: with 600 or more weights per dimension all basis functions of a DMP underflow at times from 1.2 times the execution time on: the code computes 0 / 0.
* `C84_underflow_cartesian`: 
* `C87_finding_dashed_needs_color`: dashed lines instead of areas (`fill_between=False`) need a `color`: without it a ValueError is raised.
* `C87_finding_no_time_label`: only the cells of the last row of the grid can have a label of the time axis. If the last row is empty (and the grid is filled row by row) no subplot has one.
* `C87_finding_transposed_overlap`: with `transpose`, a grid of at least two rows that has one cell too few is accepted and two dimensions are drawn into the same subplot.
* `C87_too_few_cells`: if the grid has too few cells, an error is raised and nothing is drawn. Finding: this is only the case without `transpose`, see `C87_finding_transposed_overlap`.
* `C88_finding_flag`: the attribute `show` does not tell whether the geometry is visible: after any history it can become `True` while the geometry is hidden.
* `C88_finding_never_hidden`: it does not toggle: without a modifier key, the geometry is never hidden.
* `C88_finding_stays_hidden`: a geometry that was hidden with a modifier key stays hidden as long as modifier keys are held.
* `C89_finding_base_frame`: The pose of `UR5Simulation.get_ee_state` is not the pose relative to the base: for a base at position `t` that is not rotated the point `v` of the end effector is at `link(v - t)`, and not at `link(v) - t`. They agree only if the orientation of the end effector leaves `t` unchanged.
* `C89_finding_velocity`: The velocity of `UR5Simulation.get_ee_state` is wrong by a constant: for a robot that does not move it is 0 if and only if the base is at the origin.
* `C91_finding_exception_does_not_stop`: `UR5Simulation.step_through_cartesian` does not stop the robot if `step` of the movement raises an exception (e.g. in a coupling term): the exception is passed on and the simulation is in the state after the last successful iteration. No velocity 0 is commanded (compare `C91_ur5_stops`), the velocities commanded in that iteration stay in effect.
* `C91_finding_rh5_exception_does_not_stop`: The same holds for `RH5Simulation.step_through_cartesian`: `stop` is not called if `step` of the movement raises an exception.
* `C91_finding_rh5_velocities`: The velocities that `RH5Simulation.step_through_cartesian` returns as measured velocities are the desired velocities (after the first row, which is 0), whatever the robot does.
* `C91_finding_second_simulation`: A `UR5Simulation` that is not the first simulation of the process sends its commands to the first one, but simulates its own: the measured pose never changes.
* `C92_finding_base_link`: The base link of a robot cannot be looked up by its name: unless another link has the same name there is no entry for it, so that `KinematicsChain(ee_frame=<base link>, ...)` raises a KeyError. (There is an entry for the name as `bytes`.)
* `C94_fv_clock_advanced`: in two or more dimensions `DMPWithFinalVelocity.step` raises ValueError for a position of any other length, but its clock has advanced by then.
* `C94_fv_single_number`: `DMPWithFinalVelocity.step` accepts an array of length 1 as position of any number of dimensions and repeats its element.
* `C94_spring_damper_orientation_wrong_length`: as `C94_spring_damper_wrong_length`.
* `C94_spring_damper_wrong_length`: for a position of any other length `SpringDamper.step` raises ValueError after its clock has advanced; for a velocity of any other length the stored position has been overwritten as well.
* `C95_calls_restarts`: with random restarts the argument `interval` never reaches the optimiser, and the argument `solver` only for the first pose and only if initial joint angles are given: all other minimisations are made by "SLSQP" within the joint limits.
* `C95_other_chain_finding`: otherwise they do: a chain that does not contain all joints on the way returns a different pose for the same joint angles after another chain of the same robot has been used.
* `C98_finding_difference`: So Python and Cython Euler steps differ with a precomputed velocity `w`: after one sub-step the velocities differ by `w / execution_time`.
* `C98_finding_ignored_with_coupling`: None of the four step functions of DMPs adds a precomputed coupling to the coupling of a coupling term: if there is a coupling term, a precomputed coupling is ignored.
* `C98_finding_velocity_ignored`: The other three step functions of DMPs ignore the velocity of a precomputed coupling.
* `C99_finding_shared`: `from_weight_distribution` keeps the arrays of the caller: later assignments of the caller to their entries change the distribution, of all objects that were initialised with these arrays. `imitate` with `n_iter = 0` does not change that.

## 6. Properties: what is modelled and how it is proved

* **C01 Phase variable runs from 1 to the goal phase and only decreases.** `phase`, `canonicalSystemAlpha` as real functions with the guard as exception; strict antitonicity of exp, limit by Mathlib filters. (proved, 9 theorems)
* **C02 Phase depends only on the relative position in the movement.** Algebra on the exponent of `phase`. (proved, 2 theorems)
* **C03 Basis functions of the forcing term form a partition of unity.** `ForcingTerm` with `Fin n` indexed centers/widths; sum of normalised positive terms. (proved, 3 theorems)
* **C04 Forcing term is linear in the weights, bounded by the phase and vanishes.** Convex combination bound; squeeze theorem for the limit. (proved, 4 theorems)
* **C05 Basis functions are placed in order and overlap as configured.** `_init_rbfs` recurrence; monotonicity of exp; explicit width formula. Negative witness: start_t = step gives two equal centers, so the width formula divides by zero. (proved, 3 theorems)
* **C06 Forces computed from a demonstration are exactly the ones that reproduce its accelerations.** `determineForces` and `dmpAcc` as functions; field algebra in both directions (iff). (proved, 5 theorems)
* **C07 Euler DMP reaches its goal for every weight vector.** Loop of `dmp_step_euler` as affine recursion x' = A x + u_k with u_k -> 0; Jury conditions imply spectral radius < 1 imply powers summable; discrete convolution lemma. int_dt = dt first (one sub-step), then any number of sub-steps. (proved, 3 theorems)
* **C08 RK4 DMP reaches its goal for every weight vector.** As C07 with the rk4 update matrix (quartic Taylor polynomial of the system matrix). (proved, 2 theorems)
* **C09 The rk4 step is the classical Runge-Kutta step of the DMP differential equation with the forcing term read one step ahead.** Textbook Runge-Kutta in `Spec`, ring identity. (proved, 1 theorems)
* **C10 Python and Cython rk4 implementations are interchangeable.** Both functions modelled separately; ring identity including the coupling branch. (proved, 3 theorems)
* **C11 Python and Cython Euler implementations are interchangeable without a coupling term.** Both loops modelled separately; induction over sub-steps. Witness for the disagreement with an explicit constant velocity coupling. (proved, 5 theorems)
* **C12 Internal Euler integration covers the interval exactly and terminates.** Big-step `while` semantics; closed form of the loop by induction; divergence for int_dt <= 0 by invariance of the guard. (proved, 4 theorems)
* **C13 Trajectories are equivariant under translation.** Induction over sub-steps and over rows of the open loop. (proved, 8 theorems)
* **C14 Trajectories are invariant under rescaling of time.** Same induction with the time-scaling relation as invariant. (proved, 15 theorems)
* **C15 The goal is an equilibrium.** Induction; converse by solving the fixed point equation. (proved, 8 theorems)
* **C16 Smooth scaling removes the acceleration jump caused by a distant goal.** Direct from `dmpAcc`, phase at start_t = 1. (proved, 4 theorems)
* **C17 Without p_gain, DMP.step ignores the passed state.** Induction over the list of feedback pairs. (proved, 3 theorems)
* **C18 Stepping and open_loop generate the same trajectory.** Simulation relation between object state and loop variables of `dmp_open_loop`. Negative witness for start_yd != 0. (proved, 9 theorems)
* **C19 Reset makes execution repeatable.** State equality after reset for an arbitrary history of operations (inductive list of operations). (proved, 7 theorems)
* **C20 open_loop returns a uniform time grid covering the requested duration.** `arange` length via Nat.ceil; prefix property by induction. (proved, 9 theorems)
* **C21 open_loop does not disturb the DMP.** Heap model: open_loop leaves memory and object equal, hence removing the call from any history changes no other result. (proved, 2 theorems)
* **C22 Weights written are weights read.** `List`-level model of reshape/ravel; broadcasting branch of CartesianDMP modelled. (proved, 15 theorems)
* **C23 A saved weight vector stays what it was.** Heap model with addresses and views: frame theorem for arbitrary histories (CartesianDMP); for the other classes the returned view is shown to follow the current weights. (proved, 5 theorems)
* **C24 Changing the execution time keeps the learned weights.** State/exception monad; negative witness for atomicity. (proved, 6 theorems)
* **C25 configure changes exactly the given values.** State/exception monad over optional list arguments; frame theorem, error iff theorem, witness for partial application. (proved, 4 theorems)
* **C26 Imitation solves the regularised least squares problem optimally.** `IsPinv` (Penrose equations) in Spec; normal equations; convexity argument; uniqueness from positive definiteness. (proved, 8 theorems)
* **C27 Imitation is invariant to time scale and to translation of the demonstration.** Equality of forces, design matrices under the transformations; negative witness for time shift. (proved, 7 theorems)
* **C28 Imitation configures the movement to start and end where the demonstration does.** Direct evaluation; zero forces -> zero weights -> C15. (proved, 13 theorems)
* **C29 Quintic goal constraints of DMPWithFinalVelocity are solvable and meet all boundary conditions.** 6x6 system; explicit inverse / determinant; `HasDerivAt`. (proved, 6 theorems)
* **C30 With zero weights DMPWithFinalVelocity's dynamics follow the quintic exactly.** Algebra with C29. (proved, 4 theorems)
* **C31 Orientations produced by quaternion DMPs are unit quaternions.** Norm multiplicativity; induction over sub-steps and rows. (proved, 11 theorems)
* **C32 Quaternion logarithm and exponential are inverse as rotations and respect the double cover.** Trigonometric identities, half-angle; case split at w = 0. (proved, 6 theorems)
* **C33 Cartesian DMP is the product of its position and orientation parts.** Model with a 7-vector split into 3 + 4; frame arguments and induction. (proved, 6 theorems)
* **C34 Goal orientation is an equilibrium of the quaternion DMP.** log of the identity quaternion is zero; induction. (proved, 8 theorems)
* **C35 Python and Cython dual-arm DMP steps agree when p_gain is zero or one sub-step is taken.** Both loops modelled; induction; witness with two sub-steps. (proved, 4 theorems)
* **C36 DualCartesianDMP.open_loop is repeatable.** Object model of step/open_loop; witness. (proved, 4 theorems)
* **C37 Smooth scaling of the dual-arm DMP uses the gains of the scaled dimensions.** Index maps pps/pvs modelled literally; witness with non-uniform beta_y. (proved, 3 theorems)
* **C38 Coupling terms couple symmetrically, respect leader/follower roles and vanish at the desired formation.** Algebra on `Fin 3 -> R`. (proved, 11 theorems)
* **C39 Obstacle avoidance steers away from the obstacle, orthogonally to the velocity.** Plane geometry with explicit rotation matrix; Cauchy-Schwarz for the arccos argument. (proved, 7 theorems)
* **C40 Minimum jerk trajectory has the closed form of the minimum jerk polynomial and ends at the goal.** Recurrence of the code; induction with the polynomial state as invariant. (proved, 9 theorems)
* **C41 Conditioning a ProMP on a position meets the position exactly.** Matrix algebra with nonsingular inverse; `Option` for LinAlgError. (proved, 4 theorems)
* **C42 Conditioning keeps a valid covariance and never increases uncertainty.** Schur-complement type argument; Loewner order by quadratic forms. (proved, 3 theorems)
* **C43 Noise-free via points are all satisfied.** Induction over the list of via points with the invariant that earlier constraints have zero covariance. (proved, 5 theorems)
* **C44 ProMP trajectory covariance is a covariance.** Congruence of PSD matrices; block diagonal support. (proved, 5 theorems)
* **C45 ProMP velocities are the derivatives of ProMP positions with respect to normalised time.** `HasDerivAt` of the normalised RBF. (proved, 2 theorems)
* **C46 ProMP queries do not modify their arguments.** Model of the in-place division as state change of the caller's array. (proved, 6 theorems)
* **C47 EM imitation keeps a valid distribution in every iteration.** Invariant over iterations (PSD by pinv/inverse and congruence; sum of squares). (proved, 4 theorems)
* **C48 Joint values are clipped and rotations are rotations.** Rotation matrices by explicit 3x3 algebra; clip idempotent; induction over chain. (proved, 9 theorems)
* **C49 Inverse kinematics with random restarts returns the best attempt and stops as early as promised.** Recursion over attempts against an arbitrary stream of solver results. (proved, 3 theorems)
* **C50 Local inverse kinematics stays in the search interval.** Solver as arbitrary bound-respecting function; counterexample solver. (proved, 3 theorems)
* **C51 Pose distance is a non-negative weighted error that is zero exactly for equal poses.** trace bound for rotations via orthogonality; arccos facts. (proved, 5 theorems)
* **C52 Saved objects are restored.** Tree model of Python objects; structural induction for arbitrary classes, instances for DMP, CartesianDMP, ProMP in all states; concrete findings. (proved, 20 theorems)
* **C53 Potential field shows the accelerations of the DMP.** Both formulas; equality iff; witness. (proved, 4 theorems)
* **C54 Parameter vectors of the DMP distribution round-trip and the cache is faithful.** Model of the whole module with gmr abstract; the text file as a list of numbers and line ends, crash after any of them (Model/StateSpaceDistribution.lean, Props/StateSpaceDistribution.lean). (proved, 14 theorems)
* **C55 The LASA data directory is complete whenever it exists.** File system as map from paths to nodes, extraction and rename as a list of atomic operations, crash = any prefix of the list; invariant over histories of interrupted calls; interleaving witness for two processes. (proved, 5 theorems)
* **C56 Spring-damper reaches its goal.** As C07. (proved, 10 theorems)
* **C57 State-following DMP is attracted by a convex combination of its via points.** As C03/C04; uninitialised memory is a universally quantified parameter. (proved, 9 theorems)
* **C58 Values returned by step are not changed by later steps.** Heap model: step results are new buffers, frame theorem for arbitrary later histories; StateFollowingDMP: the same view is returned and overwritten. (proved, 6 theorems)
* **C59 Scalar and array parameters are normalised consistently.** Inductive input type; decision logic. (proved, 2 theorems)
* **C60 Toy data covariance is well defined.** Triangular top block; injectivity; PosDef of A^T A. (proved, 5 theorems)
* **C61 n_steps_open_loop composes.** Induction over n in the state/exception monad. (proved, 2 theorems)
* **C62 Dimensions of a DMP do not influence each other.** Non-interference by induction (relation: agreement in dimension d). (proved, 7 theorems)
* **C63 A learned DMP does not depend on the caller's demonstration array.** Heap model with views: start and goal are the first and last row of Y after imitate; writes into them are seen by the object; inner rows and weights are independent. (proved, 5 theorems)
* **C64 A coupling term that follows a trajectory keeps its own time.** Coupling object with a clock and a DMP step over the pair (DMP, coupling object); induction over calls and steps; interpolation specification; concrete witness for the second execution. (proved, 6 theorems)
* **C65 ProMP weights of a demonstration are the regularised least squares optimum.** Normal equations of the pseudo inverse; quadratic expansion. (proved, 2 theorems)
* **C66 Inverse kinematics of a trajectory respects its interval or the joint limits.** Induction over the poses against a sound minimiser; concrete one-joint chain for the findings. (proved, 5 theorems)
* **C67 Correction of tracking errors.** A step is affine in state and force: the difference to the step without tracking error is the step of a driven spring-damper from rest (Euler: fold over sub-steps; rk4: one Runge-Kutta step); closed forms for one and two sub-steps. (proved, 8 theorems)
* **C68 ProMP imitation performs exact expectation maximization updates.** Completion of the square for the E-step (pinv = inverse for positive definite matrices); block-diagonal filter matrices entry by entry; induction over iterations. (proved, 2 theorems)
* **C69 Loaded LASA demonstrations.** Evaluation of the conversion; merge sort is a sorted permutation. (proved, 6 theorems)
* **C70 Arrays behave as values if the caller does not share them.** Heap model; simulation relation between memory and values (invariant: buffers overwritten in place are shared with nothing), induction over histories. (proved, 6 theorems)
* **C71 Objects do not influence each other.** Frame theorem: methods write only into internal or new buffers. (proved, 3 theorems)
* **C72 Poses do not depend on the choice of the body frame.** Simulation between the loops (right multiplication commutes with every update: log (a r)(b r)* = log a b*), induction over sub-steps and steps; unit quaternions are the invariant. (proved, 8 theorems)
* **C73 Motions do not depend on the choice of coordinates.** Simulation: the right-hand side is linear in state, start, goal, force and coupling; for orientations log (p q p*) = p (log q) p* (proved for both implementations); ridge regression is linear in the targets. (proved, 17 theorems)
* **C74 Final velocity and accelerations are ignored by most primitives.** Non-interference: the step functions and the loop are computed with two configurations that differ only in these attributes; results are equal. (proved, 6 theorems)
* **C75 Poses reach the goal for every weight vector.** Lyapunov argument: the energy (squared angular velocity + stiffness * squared remaining angle) changes in each sub-step by at most a summable amount and decreases outside of a small level set; the remaining angle is bounded with a spherical triangle inequality. Positions by the stable linear recursion of C07 and C08. (proved, 13 theorems)
* **C76 Unforced rotations are direct.** Invariant: orientation and angular velocity stay on the geodesic; on it, the dynamics are a scalar recursion whose solution is positive and decreasing. (proved, 8 theorems)
* **C77 Integrators approximate the solution of the differential equation.** Spec/Solution.lean states the differential equations. Existence and uniqueness by variation of constants and Mathlib's ODE uniqueness. Each integrator is a stable and consistent one-step method for a damped spring with a C1 input (Lemmas/OneStep.lean); a discrete Gronwall argument over sub-steps and steps bounds the error. Orientations: exponential and logarithm of quaternions are Lipschitz continuous away from angle pi, so one step of the orientation integrator is consistent with q' = w q / 2, and a discrete Gronwall argument for the distance of unit quaternions and velocities bounds the error. Positions of CartesianDMP are those of a regular DMP (C33), dual-arm DMPs are two Cartesian DMPs (C112). A sub-step of StateFollowingDMP is one of a damped spring whose input is the attractor. (proved, 22 theorems)
* **C78 Integrators are selected by their documented names.** Spec/StepNames.lean lists the documented names with their integrators; the methods are executed for every name, inside and outside of the tables. (proved, 9 theorems)
* **C79 Integration loops terminate in floating-point arithmetic.** Model/FloatClock.lean models the computations with time that control the loops with a rounding function; Spec/Float.lean defines doubles and correct rounding (no overflow, any rule for ties). Monotonicity of rounding and Sterbenz' lemma show that each pass advances to a later double, of which there are finitely many. (proved, 3 theorems)
* **C80 Time drift and number of rows in floating-point arithmetic.** As C79; rounding errors of sums are summed up by induction. The findings are computed exactly. (proved, 7 theorems)
* **C81 Order of accuracy of the Runge-Kutta integrator.** Taylor expansion of solution and forcing term, the local error is an exact polynomial identity; global error by stability of the step; the first-order term by linearity and the Gronwall inequality. (proved, 11 theorems)
* **C82 Python and Cython orientation steps are interchangeable.** Simulation of one integration loop by the other with the invariant that the orientation is a unit quaternion, lifted to the rows of open_loop. (proved, 6 theorems)
* **C83 New movement primitives hold still at the origin.** The origin is a fixed point of every sub-step; induction over steps and rows. (proved, 7 theorems)
* **C84 Basis functions are normalised by a number that is bounded away from zero during the movement.** The phase lies between two neighbouring centres, at one of which the basis function is at least 0.8; for the findings the exponent is bounded from below and compared with the smallest double. (proved, 8 theorems)
* **C85 A DMP with final velocity comes to rest at its goal.** After the goal time a sub-step is that of a DMP with constant goal; then as C07. (proved, 2 theorems)
* **C86 A DMP with final velocity solves its differential equation and reaches the final velocity.** In coordinates relative to the goal a sub-step is that of C77 with another driving term; the boundary conditions determine the polynomial (C29). (proved, 6 theorems)
* **C87 Plots show every dimension of a trajectory or distribution in its own subplot.** A figure is a list of drawing commands with the number of the subplot; induction over dimensions and factors. (proved, 9 theorems)
* **C88 Keys that toggle geometries and point clouds in 3D views.** State machine of attribute and window; induction over the history of events. (proved, 6 theorems)
* **C89 Poses of the simulated robots are converted consistently.** Poses act on points of space; identities of quaternions. (proved, 7 theorems)
* **C90 Commands reach the right joints and an ideal robot follows the trajectory.** PyBullet is an arbitrary transition function of a world with joint positions, velocities and motor commands; induction over steps. (proved, 4 theorems)
* **C91 Logs of simulated executions are complete and aligned.** The controlled object is an arbitrary stateful function; induction over steps; C18 for the mockup. (proved, 9 theorems)
* **C92 Names of joints and links are mapped to the right indices.** Invariant of the loop over joints; selection of indices by counting joints that are not fixed. (proved, 6 theorems)
* **C93 Simulation loops end and drawings of trajectories are complete.** Induction over steps; the endless loop by `whileLoop`; arithmetic of the rounded indices. (proved, 5 theorems)
* **C94 Arrays of the wrong length are rejected by step before anything changes.** `step` with lists as arguments, with the assertions and with the broadcasting of numpy; evaluation of the statements in order. (proved, 13 theorems)
* **C95 Forward and inverse kinematics of trajectories are consistent.** The transform manager is the state that all functions of a chain read and write; an invariant says that it differs from the initial one in the joints of the chain only, and forward kinematics overwrites these. (proved, 9 theorems)
* **C96 Weights are determined by the movement they generate.** A sum of m different Gaussians with coefficients that are not all 0 has fewer than 2^m - 1 zeros, m for equal widths: divide by one exponential and differentiate until it has vanished (Rolle). Strict convexity for imitation. (proved, 11 theorems)
* **C97 A ProMP with enough weights reproduces a demonstration exactly.** The square matrix of Gaussian basis functions is invertible (zeros of sums of exponentials), so that the least squares error is 0. (proved, 2 theorems)
* **C98 A precomputed coupling acts like an additional coupling term.** Equality of the right-hand sides for all states, step function by step function; one sub-step is evaluated for the findings. (proved, 6 theorems)
* **C99 Arrays that a ProMP shares with its caller.** A memory with arrays of times, means and covariances and objects that refer to them (Model/PrompArrays.lean); frame lemma for each operation, induction over programs; the loop of imitate over demonstrations is related to the initial contents because normalising twice is normalising once. (proved, 9 theorems)
* **C100 Arrays of integers are never rounded silently while a DMP is executed.** Objects whose arrays carry a data type (Model/Dtypes.lean, Model/DtypesSpring.lean, Model/DtypesPose.lean): in-place operations round or raise according to the data type of their target. The step functions with data types are compared with those without; for open_loop by induction over the rows. (proved, 47 theorems)
* **C101 Superposition of movements.** Two d-dimensional objects are one 2d-dimensional object; taking p times the first plus q times the second half of the coordinates is a linear map that respects the gains of each dimension, and every step function commutes with such maps. The attractor of StateFollowingDMP is linear in the via points. (proved, 10 theorems)
* **C102 The time step does not influence the movement.** The integration loop can be interrupted after any number of whole sub-steps (induction over the sub-steps); rows of open_loop and sequences of step calls are iterates of one function of begin and end time. For DualCartesianDMP the correction vanishes. (proved, 15 theorems)
* **C103 Learning a ProMP makes the demonstrations more likely.** The likelihood is the density of a normal distribution (Spec/Likelihood.lean). It is bounded from below by a function of the posterior distributions (nonnegative Kullback-Leibler divergence: log det X <= tr X - n for positive definite X; matrix determinant lemma), with equality before the update; the averages minimise the bound. (proved, 5 theorems)
* **C104 Small changes have small effects.** Superposition (C101) makes every row a linear function of finitely many parameters; convergence (C07, C08, C56, C85) makes it bounded over all run times; the uniform boundedness principle gives one constant for all of them. For StateFollowingDMP the quadratic form of the convergence proof contracts the difference of two executions. The finding follows two unforced orientations that are mirror images of each other (invariant of C76: same remaining angle, opposite axes) up to the row at which each of them has covered 45 degrees. (proved, 10 theorems)
* **C105 Bounded disturbances have bounded effects.** Specification `Spec/Disturbance.lean`: executions in which the state passed to a call differs from the previous result by at most `δ`. Two executions of a linear system differ by a solution of the homogeneous system with the tracking correction as input; the quadratic form of the convergence proofs contracts each call, which bounds the difference for all calls. Existence of executions with arbitrary disturbances is proved separately. (proved, 12 theorems)
* **C106 Movements reach their goals in double precision.** The loop bodies with a rounding after every operation (Model/FloatStep.lean, Model/FloatOpenLoop.lean). A quadratic form that contracts in exact arithmetic gives a norm; the rounding errors of one integration step are bounded in this norm, the clock (C79, C80) bounds the number of steps of a call from above and their length from below, and induction over steps and calls gives decay up to a floor. For the Runge-Kutta method the norm is the maximum of the deviation and a multiple of `v + slow * e`, in which an Euler step contracts; the stability polynomial is a convex combination of powers of an Euler step. With `rnd = id` the float model is the real model. (proved, 18 theorems)
* **C107 Coupled movements end at a compromise.** Sum (weighted by the other's following factor) and difference of the two coupled dimensions decouple: the sum is an uncoupled DMP, the difference a damped oscillator with additional stiffness and damping and a constant input. For the Euler methods a sharp quadratic form (Schur-Jury conditions) contracts; for Runge-Kutta the step is a matrix `r0 + r1 A` plus the coupling velocity, with the same kind of quadratic form. The exponentially decaying forcing term does not change the limit. (proved, 10 theorems)
* **C108 DMPs can represent every movement.** Weights that divide the values of the function at the centres by the phase: the normalised basis functions average values at centres close to the current phase. Neighbouring Gaussians of the code have a bounded ratio of distance to width, so that the contribution of distant centres vanishes with m*exp(-c*m**2) while the sum of activations stays above a constant; uniform continuity does the rest. The error of the force becomes an error of the movement by Grönwall's inequality, the error of the integrators is bounded by C77. Orientations: the same forces inserted into the error recursion of the orientation integrator. (proved, 10 theorems)
* **C109 Imitated movements are reproduced.** Central differences of equidistant samples are consistent except for the two samples at each end, where the error is bounded, hence the mean squared error of the demonstrated forces vanishes. Ridge regression is optimal (C26), so its mean squared error at the samples is not larger than that of the weights of C108 plus a vanishing regularisation. On the finite-dimensional space of the basis functions the samples bound the Lipschitz constant (norms are equivalent), so that a Riemann sum bounds the integral of the error of the force. A small integral of the force changes a damped oscillator only slightly (Grönwall's inequality after subtracting the integral); the integrators are covered by C77. For orientations: the same with quaternion differences; logarithms of products of neighbouring samples are consistent with the angular velocity up to the threshold divided by the sampling interval, and the integral of the error of the torque bounds the error of the execution (as in C108). (proved, 11 theorems)
* **C110 ProMPs can represent every distribution of trajectories.** Weights are the values of the mean function at the centres of the basis functions, their covariance is the covariance function at pairs of centres, hence positive semidefinite. The activations are concentrated around the current time: the mass of distant centres vanishes with w*exp(-c*w**2). Uniform continuity on the (square of the) unit interval bounds the rest. Ridge regression is optimal (C65), which bounds the mean squared error of learned weights by that of these weights plus a vanishing regularisation. (proved, 3 theorems)
* **C111 A DMP with final velocity reproduces imitated movements.** Backward differences of equidistant samples are consistent except for the first two samples, where the error is bounded because the movement starts at rest. The polynomial that connects the ends depends linearly on final velocity and acceleration, so its contribution to the forces converges uniformly. Then as C109: ridge regression is optimal (C26 for this class), the least squares lemma of C109 bounds the integral of the error of the forces, Grönwall's inequality the error of the movement, C86 the error of the integrator. (proved, 4 theorems)
* **C112 A dual-arm DMP without coupling term is two Cartesian DMPs.** Spec/DualArms.lean states which Cartesian DMP belongs to an arm. Simulation: one sub-step of the dual-arm step function restricted to the components of an arm is a sub-step of the position step function and of the quaternion step function; the tracking correction is zero. Lifted to the integration loop, to the rows of open_loop and to sequences of calls of step. imitate and the weight vectors are evaluated and compared component by component. (proved, 5 theorems)
* **C113 The plot of a potential field shows the accelerations of potential_field_2d.** Model/PotentialFieldPlot.lean: a plot is the list of calls of quiver. Spec/PotentialFieldPlot.lean states what matplotlib shows for a vector and a scale. The scale is the maximum of the total accelerations times the number of ticks, and the factor cancels (finding). (proved, 5 theorems)
* **C114 The signs of quaternions do not matter.** Spec/Signs.lean: the same pose up to the sign of the quaternion; no turn by exactly 180 degrees. The logarithm of p*conj(q) does not depend on the signs unless its real part is 0 (C32), so one sub-step maps states that agree up to signs to states that agree up to signs. A relation between both executions of the integration loop and of the loop over rows; for dt = K*int_dt through the trajectory with dt = int_dt. imitate: the differences of neighbours and to the goal are equal. Without weights the angle to the goal never grows (C76), so only the start has to be checked. Finding: opposite first steps at exactly 180 degrees. (proved, 11 theorems)
* **C115 Without forcing term movements are direct.** Spec/Direct.lean: each coordinate is the goal plus a decreasing, nonnegative multiple of the way from the goal to the start. One dimension in units of this way is a damped spring with target z (0, or the phase with smooth scaling). Invariant of every sub-step: z <= e, v <= 0 and 0 <= v + c/2 (e - z). For the Euler method by direct computation, for the Runge-Kutta method as convex combination of explicit Euler steps plus the effect of the moving target (the phase that is read ahead only decreases). Induction over the sub-steps and over the steps. Dual arms by C112. (proved, 7 theorems)
* **C116 ProMPs do not depend on the unit of time and on the choice of the axes.** Spec/PrompFrames.lean states what mapped trajectories, weights, covariances and demonstrations are, entry by entry. Lemmas/PrompFrames.lean: the map of flat vectors is a Kronecker product with the identity and commutes with block-diagonal matrices of activations; the Moore-Penrose inverse commutes with orthogonal maps (uniqueness); one iteration of expectation maximization maps related estimates to related estimates, traces, norms and the stopping criterion are invariant; induction over the iterations. Units of time: all methods read the times only after dividing by the largest one. Finding by evaluation of one iteration. (proved, 9 theorems)
* **C117 Minimum jerk trajectories are straight and do not depend on units and coordinates.** One step is an affine combination of goal, position, velocity and acceleration whose coefficients depend only on the remaining time and dt; induction over the steps shows that it commutes with affine maps, superposition and a change of the unit of time. Straightness, monotony, the bound of the speed and the reversed trajectory from the closed form (C40). (proved, 6 theorems)
* **C118 Primitives that continue from the passed state remember nothing but the time.** A relation between objects that differ only in the stored state (and, for the spring-dampers, in the time): it is preserved by every call and related objects return the same. Spring-dampers: the integration loop of an update that does not read the time depends only on the length of the interval. Induction over the histories. (proved, 5 theorems)
* **C119 Sampled trajectories follow the distribution of the ProMP.** Spec/PrompSamples.lean states with Mathlib's probability theory what numpy documents about multivariate_normal (an assumption of the theorems). All positions of a trajectory are a matrix times the weights; characteristic functions show that a linear map of a normally distributed vector is normally distributed. Conditioning: variance 0 (C41). Average: strong law of large numbers. (proved, 5 theorems)
* **C120 Regularisation coefficients trade accuracy for small weights.** Both results are optimal for their own coefficient (C26, C65); adding the two inequalities gives both claims. Without regularisation: by the Penrose equations the weights are orthogonal to the kernel of the design matrix, so all other optimal weights are larger (Pythagoras). (proved, 10 theorems)
* **C121 Conditioning of a ProMP is Bayesian inference and independent of the order of conditions.** Spec/PrompBayes.lean defines conditional normal distributions by their probabilities of events. Weights and noise are one normally distributed vector (characteristic functions); the part of the weights that the gain does not explain and the observation are uncorrelated, so their joint distribution is a product. Several observations: induction over their number with the invariant that the weights are the current mean, a function of the observations so far, plus a normally distributed vector that is independent of these observations. Order: the gains of two steps solve one linear system whose matrix is the covariance of both observations; it is invertible if and only if both steps succeed (Schur complement); adjacent transpositions generate all permutations. (proved, 8 theorems)
* **C122 Noise does not bias what DMPs learn and do.** Spec/RandomDmp.lean defines the parameters and the call sequence (configure, set_weights, open_loop). Superposition (C101) makes all positions of a trajectory a matrix times the parameters, and the parameters a matrix times the positions of the demonstration; a linear image of a normally distributed vector is normally distributed. Averages: the strong law of large numbers for vectors and continuity of linear maps. (proved, 8 theorems)
