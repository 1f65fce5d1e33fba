{"id": "C01", "title": "Phase variable runs from 1 to the goal phase and only decreases", "statement": "With alpha = canonical_system_alpha(goal_z, goal_t, start_t) and 0 < goal_z < 1, start_t < goal_t, phase(start_t) is 1, phase(goal_t) is goal_z, phase is strictly decreasing in t, stays in (0, 1] for every t >= start_t and tends to 0 when the DMP runs on past goal_t. canonical_system_alpha raises exactly when goal_z <= 0 or start_t >= goal_t. The phase of every DMP, DMPWithFinalVelocity, CartesianDMP, DualCartesianDMP and StateFollowingDMP runs from 1 to 0.01 within its execution time, after any history of calls and after execution_time_ was changed.", "quantifier": "all real goal_z, start_t, goal_t and query times t, including times after goal_t", "why_tests_cant": "the claim is about a continuum of times and parameters; tests sample a handful of phases", "anchors": ["movement_primitives/dmp/_canonical_system.py: canonical_system_alpha, phase", "movement_primitives/dmp_fast.pyx: phase"]}
{"id": "C02", "title": "Phase depends only on the relative position in the movement", "statement": "Scaling start_t, goal_t and t by a common positive factor, or shifting all of them by a common offset, does not change the phase.", "quantifier": "all times, factors c > 0 and offsets", "why_tests_cant": "tests check one execution time; the law is over a group action on all times", "anchors": ["movement_primitives/dmp/_canonical_system.py: phase"]}
{"id": "C03", "title": "Basis functions of the forcing term form a partition of unity", "statement": "For every phase value the normalised activations returned by the forcing term are strictly positive and add up to one, so the forcing term is a convex combination of the weights times the phase; the design matrix used for imitation has column sums equal to the phase at the sampled times.", "quantifier": "all numbers of weights >= 2, all execution times, all phases and all query time sequences", "why_tests_cant": "quantifies over the number of basis functions and every phase", "anchors": ["movement_primitives/dmp/_forcing_term.py: ForcingTerm._activations, design_matrix, forcing_term"]}
{"id": "C04", "title": "Forcing term is linear in the weights, bounded by the phase and vanishes", "statement": "The forcing vector at time t is linear in the weights, each component is bounded in absolute value by phase(t) times the largest absolute weight of that dimension, is zero for zero weights, and tends to zero as t tends to infinity for any weights.", "quantifier": "all weights, numbers of weights, dimensions and times", "why_tests_cant": "limits and bounds over all weights cannot be sampled", "anchors": ["movement_primitives/dmp/_forcing_term.py: ForcingTerm.forcing_term", "movement_primitives/dmp/_canonical_system.py: phase"]}
{"id": "C05", "title": "Basis functions are placed in order and overlap as configured", "statement": "For a forcing term that starts at time 0 the constructor accepts exactly n_weights >= 2 and execution time > 0; the centers are strictly decreasing phases from 1 to the goal phase, all widths are positive, and each (unnormalised) basis function has value `overlap` at the center of its successor. For start_t different from 0 this is not guaranteed: the code ignores start_t for all centers but the first.", "quantifier": "all n_weights, execution times, overlaps in (0,1), alpha_z > 0", "why_tests_cant": "for-all over the number of basis functions; the start_t defect needs a specific non-zero start", "anchors": ["movement_primitives/dmp/_forcing_term.py: ForcingTerm.__init__, _init_rbfs"]}
{"id": "C06", "title": "Forces computed from a demonstration are exactly the ones that reproduce its accelerations", "statement": "For each sample of a demonstration, inserting the force computed by imitation into the DMP acceleration equation at that sample's position, velocity and phase returns exactly the sample's acceleration, with and without smooth scaling; no other force does.", "quantifier": "all demonstrations, gains, execution times, time stamps", "why_tests_cant": "an algebraic inverse law over all demonstrations and gains", "anchors": ["movement_primitives/dmp/_dmp.py: determine_forces, _dmp_acc"]}
{"id": "C07", "title": "Euler DMP reaches its goal for every weight vector", "statement": "If int_dt is small enough with respect to the gains (explicit discrete stability condition), execution past the nominal end converges: position tends to the goal and velocity tends to zero, for any start, goal, any learned weights, with or without smooth scaling.", "quantifier": "all weights, starts, goals, start velocities, gains and step sizes satisfying the stability condition; all infinitely long executions", "why_tests_cant": "a limit statement over infinite executions and all weights", "anchors": ["movement_primitives/dmp/_dmp.py: dmp_step_euler, DMP.step, DMP.open_loop", "movement_primitives/dmp_fast.pyx: dmp_step"]}
{"id": "C08", "title": "RK4 DMP reaches its goal for every weight vector", "statement": "The same convergence for the default rk4 integrator under its own stability condition.", "quantifier": "all weights, starts, goals, gains and step sizes satisfying the condition; infinite executions", "why_tests_cant": "limit over infinite executions", "anchors": ["movement_primitives/dmp/_dmp.py: dmp_step_rk4"]}
{"id": "C09", "title": "The rk4 step is the classical Runge-Kutta step of the DMP differential equation with the forcing term read one step ahead", "statement": "One call of the rk4 step from last_t to t equals the textbook 4-stage Runge-Kutta step for the first-order system (position, velocity) of the DMP acceleration, except that the phase is evaluated at t, t+dt/2, t+dt instead of last_t, last_t+dt/2, t.", "quantifier": "all states, gains, weights, step sizes, smooth scaling on and off, no coupling term", "why_tests_cant": "identity over all real states", "anchors": ["movement_primitives/dmp/_dmp.py: dmp_step_rk4, _dmp_acc"]}
{"id": "C10", "title": "Python and Cython rk4 implementations are interchangeable", "statement": "dmp_step_rk4 of the pure Python module and of the Cython module produce the same position and velocity for all arguments, including coupling terms, tracking errors and smooth scaling. The step functions \"rk4\" and \"rk4-cython\" give the same results of step and open_loop of DMP and CartesianDMP.", "quantifier": "all arguments of the step function", "why_tests_cant": "the two implementations organise the arithmetic differently; equality must hold for all inputs", "anchors": ["movement_primitives/dmp/_dmp.py: dmp_step_rk4", "movement_primitives/dmp_fast.pyx: dmp_step_rk4"]}
{"id": "C11", "title": "Python and Cython Euler implementations are interchangeable without a coupling term", "statement": "dmp_step_euler (Python) and dmp_step (Cython) agree for all arguments as long as no coupling term is used and the step ends after start_t. With a velocity coupling term they do not agree: Python adds the coupling velocity after the position update, Cython before. The step functions \"euler\" and \"euler-cython\" give the same results of step and open_loop of DMP and CartesianDMP under the same condition.", "quantifier": "all arguments; the disagreement is existential", "why_tests_cant": "equality over all inputs and numbers of sub-steps", "anchors": ["movement_primitives/dmp/_dmp.py: dmp_step_euler", "movement_primitives/dmp_fast.pyx: dmp_step"]}
{"id": "C12", "title": "Internal Euler integration covers the interval exactly and terminates", "statement": "For int_dt > 0 a step from last_t to t terminates after exactly ceil((t-last_t)/int_dt) sub-steps whose lengths are positive, at most int_dt and add up to t - last_t; the last sub-step ends exactly at t. For int_dt <= 0 and t > last_t the step never returns. If start_t >= goal_t the step raises ValueError.", "quantifier": "all last_t, t, int_dt", "why_tests_cant": "termination and sub-step counts over all step sizes", "anchors": ["movement_primitives/dmp/_dmp.py: dmp_step_euler", "movement_primitives/spring_damper.py: spring_damper_step"]}
{"id": "C13", "title": "Trajectories are equivariant under translation", "statement": "Shifting start and goal by the same offset shifts every position of the generated trajectory by this offset and leaves all velocities unchanged (DMP with Euler and rk4, DMPWithFinalVelocity, CartesianDMP, StateFollowingDMP with its via points, each arm of DualCartesianDMP).", "quantifier": "all offsets, starts, goals, weights, run lengths", "why_tests_cant": "for all executions of any length", "anchors": ["movement_primitives/dmp/_dmp.py: dmp_step_euler, dmp_step_rk4, dmp_open_loop"]}
{"id": "C14", "title": "Trajectories are invariant under rescaling of time", "statement": "Multiplying execution time, dt and int_dt by a common factor c > 0 leaves all generated positions unchanged and divides all velocities by c. For DMPWithFinalVelocity this holds for trajectories and steps that end not later than the execution time. StateFollowingDMP and DualCartesianDMP (with the gain of the tracking error multiplied by c) likewise.", "quantifier": "all c > 0, starts, goals, weights, run lengths", "why_tests_cant": "for all executions of any length", "anchors": ["movement_primitives/dmp/_dmp.py: DMP.open_loop, dmp_step_euler, dmp_step_rk4"]}
{"id": "C15", "title": "The goal is an equilibrium", "statement": "A DMP with zero weights whose start equals its goal and that starts at rest stays exactly there for every number of steps and every integrator; the same holds for a DMPWithFinalVelocity whose start and goal velocities and accelerations are zero. Conversely, with positive gains and a stable integrator no execution of a DMP can stay at another point, whatever its weights; without forces already one Euler step moves every other resting point.", "quantifier": "all goals, gains, step sizes, run lengths", "why_tests_cant": "for all execution lengths", "anchors": ["movement_primitives/dmp/_dmp.py: dmp_step_euler, dmp_step_rk4"]}
{"id": "C16", "title": "Smooth scaling removes the acceleration jump caused by a distant goal", "statement": "With smooth_scaling, the acceleration at rest in the start position at phase 1 does not depend on the goal at all; without it, it grows proportionally to the distance to the goal. Another goal changes the velocity returned by the next Euler step by dt * alpha_y * beta_y / execution_time**2 times the distance of the goals, with smooth scaling only by the part 1 - phase of this, which vanishes at the start of the movement.", "quantifier": "all starts, goals, gains, weights", "why_tests_cant": "independence from an arbitrary real goal", "anchors": ["movement_primitives/dmp/_dmp.py: _dmp_acc, DMP.step"]}
{"id": "C17", "title": "Without p_gain, DMP.step ignores the passed state", "statement": "If p_gain is 0, the sequence of states returned by repeated DMP.step calls does not depend on the last_y and last_yd arguments. The same is true of DMPWithFinalVelocity, and of MinimumJerkTrajectory, which has no p_gain.", "quantifier": "all sequences of feedback values", "why_tests_cant": "for all histories of feedback inputs", "anchors": ["movement_primitives/dmp/_dmp.py: DMP.step"]}
{"id": "C18", "title": "Stepping and open_loop generate the same trajectory", "statement": "For a fresh or reset DMP with start velocity zero, feeding each returned state back into DMP.step generates exactly the rows of DMP.open_loop, for every number of steps. With a non-zero configured start velocity they differ because open_loop ignores it. The same holds for every duration and coupling term for DMPWithFinalVelocity and DualCartesianDMP (with any start velocity), CartesianDMP (with start velocity zero), and SpringDamper, SpringDamperOrientation and StateFollowingDMP if velocity 0 is passed to the first call of step; exceptions are the same as well, except that CartesianDMP.open_loop may raise another one than step.", "quantifier": "all movement primitives that can be executed step by step, durations, step numbers, step functions, weights, coupling terms", "why_tests_cant": "for all execution lengths and histories before reset", "anchors": ["movement_primitives/dmp/_dmp.py: DMP.step, DMP.open_loop, dmp_open_loop", "movement_primitives/dmp/_base.py: DMPBase.reset", "movement_primitives/base.py: PointToPointMovement.n_steps_open_loop", "movement_primitives/dmp/_dmp_with_final_velocity.py: DMPWithFinalVelocity.step, DMPWithFinalVelocity.open_loop", "movement_primitives/dmp/_cartesian_dmp.py: CartesianDMP.step, CartesianDMP.open_loop", "movement_primitives/dmp/_dual_cartesian_dmp.py: DualCartesianDMP.step, DualCartesianDMP.open_loop", "movement_primitives/dmp/_state_following_dmp.py: StateFollowingDMP.step, StateFollowingDMP.open_loop", "movement_primitives/spring_damper.py: SpringDamper, SpringDamperOrientation"]}
{"id": "C19", "title": "Reset makes execution repeatable", "statement": "After any history of step, configure, set_weights and execution time changes, reset followed by k steps yields the same outputs as a newly constructed object with the same configuration and weights; this holds for DMP, DMPWithFinalVelocity, CartesianDMP, DualCartesianDMP and StateFollowingDMP. Without smooth scaling, changing start_y after the first step without reset has no effect on the running state.", "quantifier": "all histories of public operations", "why_tests_cant": "quantifies over all operation sequences", "anchors": ["movement_primitives/dmp/_base.py: DMPBase.reset", "movement_primitives/dmp/_dmp.py: DMP.step"]}
{"id": "C20", "title": "open_loop returns a uniform time grid covering the requested duration", "statement": "T starts at 0, is equally spaced by dt, has one row of Y per entry, its last entry is the first grid point not before run_t; the first row of Y is start_y; a longer run extends a shorter run (prefix property). This holds for DMP, DMPWithFinalVelocity, CartesianDMP, DualCartesianDMP, StateFollowingDMP, SpringDamper and SpringDamperOrientation.", "quantifier": "all dt > 0, run_t >= 0, parameters, coupling terms and states of the object", "why_tests_cant": "over all run lengths", "anchors": ["movement_primitives/dmp/_dmp.py: dmp_open_loop, DMP.open_loop", "movement_primitives/dmp/_dmp_with_final_velocity.py: DMPWithFinalVelocity.open_loop", "movement_primitives/dmp/_cartesian_dmp.py: CartesianDMP.open_loop", "movement_primitives/dmp/_dual_cartesian_dmp.py: DualCartesianDMP.open_loop", "movement_primitives/dmp/_state_following_dmp.py: StateFollowingDMP.open_loop", "movement_primitives/spring_damper.py: SpringDamper.open_loop, SpringDamperOrientation.open_loop"]}
{"id": "C21", "title": "open_loop does not disturb the DMP", "statement": "Calling open_loop of DMP, DMPWithFinalVelocity, CartesianDMP, SpringDamper, SpringDamperOrientation or StateFollowingDMP any number of times at any place in a history of calls does not change any other result of the history.", "quantifier": "all interleavings of open_loop and step calls", "why_tests_cant": "over all histories", "anchors": ["movement_primitives/dmp/_dmp.py: DMP.open_loop", "movement_primitives/dmp/_cartesian_dmp.py: CartesianDMP.open_loop"]}
{"id": "C22", "title": "Weights written are weights read", "statement": "After set_weights(w) with len(w) == n_weights, get_weights returns w; set_weights(get_weights()) changes nothing; a vector of wrong length raises and leaves the DMP unchanged for DMP, DMPWithFinalVelocity; for CartesianDMP some wrong lengths are silently broadcast or leave position weights overwritten.", "quantifier": "all weight vectors of all lengths", "why_tests_cant": "for all vectors and sizes", "anchors": ["movement_primitives/dmp/_base.py: WeightParametersMixin", "movement_primitives/dmp/_cartesian_dmp.py: CartesianDMP.get_weights, set_weights"]}
{"id": "C23", "title": "A saved weight vector stays what it was", "statement": "The array returned by get_weights before set_weights/imitate should keep its values so that weights can be saved and restored. This holds for CartesianDMP; it fails for DMP, DMPWithFinalVelocity and DualCartesianDMP, whose get_weights returns a view of the internal array that later calls overwrite.", "quantifier": "all heaps, weight vectors and later calls", "why_tests_cant": "aliasing over all memory layouts and call histories", "anchors": ["movement_primitives/dmp/_base.py: WeightParametersMixin.get_weights, set_weights", "movement_primitives/dmp/_cartesian_dmp.py: CartesianDMP.get_weights"]}
{"id": "C24", "title": "Changing the execution time keeps the learned weights", "statement": "Assigning execution_time_ keeps the weights and rebuilds the phase for the new duration; reading returns the assigned value. Assigning an invalid duration (<= 0) raises ValueError but leaves the DMP with the invalid duration stored (not atomic).", "quantifier": "all sequences of assignments, all weights", "why_tests_cant": "over all histories including failing ones", "anchors": ["movement_primitives/dmp/_dmp.py: DMP.get_execution_time_, set_execution_time_"]}
{"id": "C25", "title": "configure changes exactly the given values", "statement": "configure sets the given meta parameters and no others, and raises ValueError if and only if some given array has the wrong length. A failing configure may already have applied the arguments that precede the invalid one.", "quantifier": "all argument combinations and lengths", "why_tests_cant": "for all combinations of optional arguments and all failure points", "anchors": ["movement_primitives/base.py: PointToPointMovement.configure"]}
{"id": "C26", "title": "Imitation solves the regularised least squares problem optimally", "statement": "The weights computed by imitation minimise the sum of squared force errors plus regularization times squared weights over all weight matrices; for a positive regularization coefficient the minimiser is unique. A negative coefficient raises ValueError.", "quantifier": "all demonstrations, numbers of weights, regularization coefficients, competing weights", "why_tests_cant": "optimality over a continuum of competitors", "anchors": ["movement_primitives/dmp/_dmp.py: dmp_imitate, ridge_regression"]}
{"id": "C27", "title": "Imitation is invariant to time scale and to translation of the demonstration", "statement": "For demonstrations starting at time 0, multiplying all time stamps by c > 0 or shifting all positions by a constant does not change the learned weights; scaling positions by s scales the weights by s. The invariance to the time unit holds for DMP, CartesianDMP, DualCartesianDMP and DMPWithFinalVelocity when the execution time is given in the same unit (start and goal velocities and accelerations learned by DMPWithFinalVelocity are divided by c and c^2). Shifting the time stamps by a constant does change the weights (start_t is ignored in the placement of the basis functions).", "quantifier": "all demonstrations, factors and offsets", "why_tests_cant": "over all demonstrations", "anchors": ["movement_primitives/dmp/_dmp.py: dmp_imitate, determine_forces", "movement_primitives/dmp/_forcing_term.py: ForcingTerm._init_rbfs", "movement_primitives/dmp/_cartesian_dmp.py: CartesianDMP.imitate", "movement_primitives/dmp/_dual_cartesian_dmp.py: DualCartesianDMP.imitate", "movement_primitives/dmp/_dmp_with_final_velocity.py: DMPWithFinalVelocity.imitate"]}
{"id": "C28", "title": "Imitation configures the movement to start and end where the demonstration does", "statement": "After DMP.imitate the start and goal are the first and last demonstrated positions, execution time, gains and time are unchanged; a constant demonstration yields zero weights and a constant reproduction. The same holds for the Cartesian, dual-arm and final-velocity variants.", "quantifier": "all demonstrations", "why_tests_cant": "for-all over demonstrations", "anchors": ["movement_primitives/dmp/_dmp.py: DMP.imitate", "movement_primitives/dmp/_cartesian_dmp.py: CartesianDMP.imitate", "movement_primitives/dmp/_dual_cartesian_dmp.py: DualCartesianDMP.imitate", "movement_primitives/dmp/_dmp_with_final_velocity.py: DMPWithFinalVelocity.imitate"]}
{"id": "C29", "title": "Quintic goal constraints of DMPWithFinalVelocity are solvable and meet all boundary conditions", "statement": "Whenever start and goal time differ, the linear system has exactly one solution, the polynomial takes the requested position, velocity and acceleration at both ends and the reported velocity and acceleration are its derivatives; after goal_t the reference is the goal at rest.", "quantifier": "all start/goal positions, velocities, accelerations, times", "why_tests_cant": "solvability and derivative identities over all reals", "anchors": ["movement_primitives/dmp/_dmp_with_final_velocity.py: solve_constraints, apply_constraints"]}
{"id": "C30", "title": "With zero weights DMPWithFinalVelocity's dynamics follow the quintic exactly", "statement": "The moving goal polynomial is an exact solution of the transformation system with zero forcing: at a state on the polynomial the commanded acceleration is the polynomial's second derivative; forces determined from a demonstration invert the acceleration equation.", "quantifier": "all boundary conditions, times, gains", "why_tests_cant": "differential identity over all times", "anchors": ["movement_primitives/dmp/_dmp_with_final_velocity.py: dmp_step_euler_with_constraints, determine_forces"]}
{"id": "C31", "title": "Orientations produced by quaternion DMPs are unit quaternions", "statement": "If the start orientation is a unit quaternion, every orientation produced by the quaternion step functions, by CartesianDMP.open_loop/step, DualCartesianDMP and SpringDamperOrientation after any number of steps is a unit quaternion.", "quantifier": "all executions, goals, weights, coupling terms", "why_tests_cant": "an invariant over unbounded executions", "anchors": ["movement_primitives/dmp_fast.pyx: dmp_step_quaternion, concatenate_quaternions, quaternion_from_compact_axis_angle", "movement_primitives/dmp/_cartesian_dmp.py: dmp_step_quaternion_python", "movement_primitives/spring_damper.py: spring_damper_step_quaternion"]}
{"id": "C32", "title": "Quaternion logarithm and exponential are inverse as rotations and respect the double cover", "statement": "For unit q the compact axis-angle of q has norm at most pi, mapping it back gives q or -q, and q and -q give the same axis-angle vector unless the rotation angle is exactly pi, where they give opposite vectors.", "quantifier": "all unit quaternions", "why_tests_cant": "continuum with a discontinuity at angle pi", "anchors": ["movement_primitives/dmp_fast.pyx: compact_axis_angle_from_quaternion, quaternion_from_compact_axis_angle"]}
{"id": "C33", "title": "Cartesian DMP is the product of its position and orientation parts", "statement": "Position results of CartesianDMP do not depend on orientation parameters and vice versa; stepping with fed back results equals open_loop; step results depend only on time and the passed state, not on earlier calls.", "quantifier": "all parameters and histories", "why_tests_cant": "over histories and all parameters", "anchors": ["movement_primitives/dmp/_cartesian_dmp.py: CartesianDMP.step, open_loop"]}
{"id": "C34", "title": "Goal orientation is an equilibrium of the quaternion DMP", "statement": "At the goal orientation (or its antipode) with zero velocity and zero weights the orientation stays the same rotation for every number of steps; a dual-arm DMP with zero weights that starts at its goal poses stays there. Conversely, without forces a resting orientation that a step leaves unchanged is the goal or its antipode, up to the resolution of the quaternion functions.", "quantifier": "all goals, step sizes, run lengths", "why_tests_cant": "unbounded executions", "anchors": ["movement_primitives/dmp_fast.pyx: dmp_step_quaternion", "movement_primitives/spring_damper.py: spring_damper_step_quaternion"]}
{"id": "C35", "title": "Python and Cython dual-arm DMP steps agree when p_gain is zero or one sub-step is taken", "statement": "For zero p_gain (or a single sub-step) both implementations give the same result; for non-zero p_gain with several sub-steps and no coupling term they differ, because the Python version accumulates the tracking correction over sub-steps. step and open_loop of DualCartesianDMP give the same results with the step functions 'python' and 'cython' if p_gain is zero, a coupling term is used or one sub-step is taken; open_loop also for every p_gain and number of sub-steps if the object has not been executed since it was created or reset.", "quantifier": "all arguments; the disagreement is existential", "why_tests_cant": "equality over all numbers of sub-steps", "anchors": ["movement_primitives/dmp/_dual_cartesian_dmp.py: dmp_step_dual_cartesian_python", "movement_primitives/dmp_fast.pyx: dmp_step_dual_cartesian"]}
{"id": "C36", "title": "DualCartesianDMP.open_loop is repeatable", "statement": "Without p_gain two consecutive open_loop calls return the same trajectory; with non-zero p_gain the second call can differ because the internal state is not reset.", "quantifier": "all parameters and histories", "why_tests_cant": "over histories", "anchors": ["movement_primitives/dmp/_dual_cartesian_dmp.py: DualCartesianDMP.open_loop, step"]}
{"id": "C37", "title": "Smooth scaling of the dual-arm DMP uses the gains of the scaled dimensions", "statement": "With smooth scaling the initial acceleration is independent of the goal position. This holds when all beta_y entries used are equal and fails for general per-dimension beta_y because the position gains of the right arm are read with pose indices.", "quantifier": "all gains and goals", "why_tests_cant": "needs non-uniform gains; property over all gains", "anchors": ["movement_primitives/dmp/_dual_cartesian_dmp.py: dmp_step_dual_cartesian_python lines 115-125", "movement_primitives/dmp_fast.pyx: dmp_step_dual_cartesian"]}
{"id": "C38", "title": "Coupling terms couple symmetrically, respect leader/follower roles and vanish at the desired formation", "statement": "For the 1D and 3D position couplings and the dual Cartesian couplings: a participant with leader factor 0 receives zero coupling, equal factors give opposite couplings, and the coupling is zero when the desired displacement (distance, pose) is attained.", "quantifier": "all positions, velocities, gains", "why_tests_cant": "algebraic law over all states", "anchors": ["movement_primitives/dmp/_coupling_terms.py: CouplingTermPos1DToPos1D, CouplingTermPos3DToPos3D, CouplingTermDualCartesianDistance, CouplingTermDualCartesianPose"]}
{"id": "C39", "title": "Obstacle avoidance steers away from the obstacle, orthogonally to the velocity", "statement": "The obstacle acceleration is orthogonal to the velocity, has a non-positive component towards the obstacle, its magnitude is gamma*|v|*theta*exp(-beta*theta) with theta the (regularised) steering angle, and it is zero at rest, unless the velocity is parallel to the direction of the obstacle. In the parallel case (in particular on a collision course) the acceleration is along the velocity, i.e. it does not steer. The Cython and the Python 2D versions agree.", "quantifier": "all positions, velocities, obstacles, gamma, beta", "why_tests_cant": "geometric inequality over all real vectors, including degenerate ones", "anchors": ["movement_primitives/dmp/_coupling_terms.py: obstacle_avoidance_acceleration_2d, obstacle_avoidance_acceleration_3d", "movement_primitives/dmp_fast.pyx: obstacle_avoidance_acceleration_2d"]}
{"id": "C40", "title": "Minimum jerk trajectory has the closed form of the minimum jerk polynomial and ends at the goal", "statement": "If execution_time = n*dt with n >= 2 the generated positions are start + (goal-start)*(10 s^3 - 15 s^4 + 6 s^5) at s = min(1, k/(n-1)), i.e. the goal is reached at step n-1 with zero velocity and acceleration. For n = 1 and for non-integer ratios the goal is not reached.", "quantifier": "all starts, goals, dt > 0 and n", "why_tests_cant": "induction over the number of steps", "anchors": ["movement_primitives/data/_minimum_jerk.py: generate_minimum_jerk", "movement_primitives/minimum_jerk_trajectory.py: MinimumJerkTrajectory"]}
{"id": "C41", "title": "Conditioning a ProMP on a position meets the position exactly", "statement": "Without observation noise the conditioned ProMP's mean trajectory passes exactly through the requested position at the requested time and its variance there is zero, whenever the matrix to be inverted is invertible; conditioning does not modify the original ProMP.", "quantifier": "all ProMPs (dimensions, weights, covariances), times, positions", "why_tests_cant": "matrix identity over all sizes", "anchors": ["movement_primitives/promp.py: ProMP.condition_position"]}
{"id": "C42", "title": "Conditioning keeps a valid covariance and never increases uncertainty", "statement": "If the weight covariance is symmetric positive semidefinite and y_cov is symmetric positive semidefinite, the conditioned covariance is symmetric positive semidefinite and smaller than or equal to the prior in the Loewner order, so that no variance along the trajectory grows.", "quantifier": "all sizes, covariances, times", "why_tests_cant": "matrix inequality over all sizes", "anchors": ["movement_primitives/promp.py: ProMP.condition_position, var_trajectory"]}
{"id": "C43", "title": "Noise-free via points are all satisfied", "statement": "Conditioning on a sequence of via points without noise (via_points) yields a distribution whose mean passes exactly through all of them with zero variance, regardless of their number and order, provided no conditioning step fails. It fails exactly if two times coincide or there are more via points than weights per dimension (for positive definite weight covariances). Covariances passed to via_points are not covariances of the positions: row idx of the array is added to every row of a matrix.", "quantifier": "all finite sequences of via points", "why_tests_cant": "induction over the number of via points", "anchors": ["movement_primitives/promp.py: via_points, ProMP.condition_position"]}
{"id": "C44", "title": "ProMP trajectory covariance is a covariance", "statement": "cov_trajectory is symmetric positive semidefinite, var_trajectory is its non-negative diagonal arranged per dimension, and the block-diagonal basis keeps dimensions separate: dimension d of a trajectory depends only on the weights of dimension d.", "quantifier": "all sizes, weights, query times", "why_tests_cant": "over all sizes", "anchors": ["movement_primitives/promp.py: mean_trajectory, cov_trajectory, var_trajectory, _nd_block_diagonal"]}
{"id": "C45", "title": "ProMP velocities are the derivatives of ProMP positions with respect to normalised time", "statement": "mean_velocities is the exact derivative of mean_trajectory as function of time divided by the largest query time; it is the derivative with respect to real time only if the largest query time is 1.", "quantifier": "all weights, numbers of basis functions, times", "why_tests_cant": "derivative identity over all times", "anchors": ["movement_primitives/promp.py: _rbfs_1d_sequence, _rbfs_derivative_1d_sequence, mean_velocities"]}
{"id": "C46", "title": "ProMP queries do not modify their arguments", "statement": "A query such as mean_trajectory(T) should leave the caller's array T unchanged. This fails: a float array T is divided in place by its maximum, by all queries and also by weights(T, Y). A second query with the modified array returns the same result.", "quantifier": "all query arrays", "why_tests_cant": "effect on caller memory over all arrays", "anchors": ["movement_primitives/promp.py: ProMP._rbfs_1d_sequence"]}
{"id": "C47", "title": "EM imitation keeps a valid distribution in every iteration", "statement": "In every iteration of ProMP.imitate the weight covariance stays symmetric positive semidefinite and the noise variance estimate non-negative.", "quantifier": "all demonstrations and numbers of iterations", "why_tests_cant": "invariant over iterations", "anchors": ["movement_primitives/promp.py: ProMP.imitate, _expectation, _maximization"]}
{"id": "C48", "title": "Joint values are clipped and rotations are rotations", "statement": "FastUrdfTransformManager.set_joint clips to the joint limits, forward kinematics depends only on the clipped values and always returns a rigid transform; revolute joint transforms compose additively in the angle.", "quantifier": "all joint values, chains of any length", "why_tests_cant": "over all chain lengths and angles", "anchors": ["movement_primitives/kinematics.py: FastUrdfTransformManager.set_joint, _fast_matrix_from_axis_angle, Chain.forward"]}
{"id": "C49", "title": "Inverse kinematics with random restarts returns the best attempt and stops as early as promised", "statement": "The result of inverse_with_random_restarts is the first attempt with an error not larger than tolerance, or, if none of the n_restarts attempts is, one with the smallest error; never more than n_restarts attempts are made and never one after a success.", "quantifier": "all solver behaviours (any sequence of attempts and errors), n_restarts, tolerances", "why_tests_cant": "over all possible solver outcomes", "anchors": ["movement_primitives/kinematics.py: Chain.inverse_with_random_restarts, local_inverse_with_random_restarts"]}
{"id": "C50", "title": "Local inverse kinematics stays in the search interval", "statement": "local_inverse_with_random_restarts should return joint angles within the given interval around q0 (intersected with the joint limits). The code does not pass the interval to the solver, so this fails; only the initial guesses lie in the interval.", "quantifier": "all bound-respecting solvers, chains, intervals", "why_tests_cant": "needs adversarial solver behaviour", "anchors": ["movement_primitives/kinematics.py: Chain.local_inverse_with_random_restarts, Chain.inverse"]}
{"id": "C51", "title": "Pose distance is a non-negative weighted error that is zero exactly for equal poses", "statement": "pose_dist is non-negative, zero if and only if both poses coincide (positive weights), its rotation part is at most pi and symmetric in its arguments.", "quantifier": "all pairs of rigid transforms and weights", "why_tests_cant": "over the continuum of poses", "anchors": ["movement_primitives/kinematics.py: pose_dist"]}
{"id": "C52", "title": "Saved objects are restored", "statement": "read_json(write_json(obj)) restores an object of the same class whose attributes equal those of the original (arrays as arrays), for every state that the object can be in; the same for YAML. Holds for DMP, CartesianDMP and ProMP (any hierarchical composition of basic data types and non-empty arrays whose class offers matching attributes). Findings: a learned ProMP cannot be read from YAML (np.float64), MinimumJerkTrajectory gets lists for its arrays, tuples become lists and a tuple of a nested object makes a YAML file unreadable. Entries that a file does not contain get the default values of the constructor; a missing n_dims raises TypeError.", "quantifier": "all object states", "why_tests_cant": "over all states reachable by the API", "anchors": ["movement_primitives/io.py: _recursive_to_dict, _recursive_from_dict, _dict_to_object"]}
{"id": "C53", "title": "Potential field shows the accelerations of the DMP", "statement": "The total acceleration returned by potential_field_2d at a point equals the acceleration with which the DMP moves there. This holds only with smooth scaling, no coupling term and zero goal velocity/acceleration.", "quantifier": "all DMPs, points, times", "why_tests_cant": "over all grid points and DMP configurations", "anchors": ["movement_primitives/dmp_potential_field.py: potential_field_2d", "movement_primitives/dmp/_dmp.py: dmp_transformation_system, _dmp_acc"]}
{"id": "C54", "title": "Parameter vectors of the DMP distribution round-trip and the cache is faithful", "statement": "Splitting a sampled parameter vector recovers exactly the weights, start and goal in the layout in which they were stacked; the execution time in it is ignored. A sample equal to the parameter vector of a demonstration is the DMP learned from it, run for the mean execution time. All samples give trajectories of the same length. Demonstrations with a mean time step below 5 ms are ignored; the result are the trajectories of the sigma points for alpha and kappa of the distribution of the parameter vectors of all others, executed for their mean duration. A cached trajectory file is returned irrespective of the arguments; a file truncated by a crash between rows is accepted as complete, one truncated within a row makes every later call raise ValueError.", "quantifier": "all vectors, all crash points while writing", "why_tests_cant": "all crash points and sizes", "anchors": ["movement_primitives/dmp_to_state_space_distribution.py"]}
{"id": "C55", "title": "The LASA data directory is complete whenever it exists", "statement": "At every crash point of the download by load_lasa, the directory lasa_data either does not exist or is complete, and an interrupted download is repaired by the next call, whatever was left behind; an existing directory is not touched again. After a successful call nothing of the extracted archive is left elsewhere, and other files are as before. This holds for calls one after the other. It fails for concurrent calls: if a second process is killed while it extracts a file and the first one renames the directory, lasa_data is incomplete forever.", "quantifier": "all archives with one top directory, all crash points, all histories of interrupted calls", "why_tests_cant": "all crash points and histories of restarts", "anchors": ["movement_primitives/data/_lasa.py: load_lasa, get_common_dataset_path"]}
{"id": "C56", "title": "Spring-damper reaches its goal", "statement": "With the default critical damping and sufficiently small int_dt the spring-damper position converges to the goal and the velocity to zero from every state; at the goal at rest it stays there. A precomputed coupling is added to that of the coupling term.", "quantifier": "all states, goals, stiffnesses, step sizes under the condition; infinite executions", "why_tests_cant": "limit over infinite executions", "anchors": ["movement_primitives/spring_damper.py: spring_damper_step, SpringDamper"]}
{"id": "C57", "title": "State-following DMP is attracted by a convex combination of its via points", "statement": "The attractor of StateFollowingDMP is at every phase a convex combination of the via points and independent of the uninitialised width when only one via point is used; a state equal to all via points at rest is an equilibrium. At time i * execution_time / n_viapoints via point i has the largest weight. A precomputed coupling is added to that of the coupling term.", "quantifier": "all numbers of via points, times, contents of uninitialised memory", "why_tests_cant": "over uninitialised memory contents and all phases", "anchors": ["movement_primitives/dmp/_state_following_dmp.py: StateFollowingForcingTerm, state_following_dmp_step"]}
{"id": "C58", "title": "Values returned by step are not changed by later steps", "statement": "Arrays returned by step keep their values when further steps are made. This holds for DMP, CartesianDMP, DualCartesianDMP, SpringDamper and MinimumJerkTrajectory; it fails for StateFollowingDMP, which returns its internal arrays.", "quantifier": "all histories of steps", "why_tests_cant": "aliasing over all histories", "anchors": ["movement_primitives/dmp/_dmp.py: DMP.step", "movement_primitives/dmp/_state_following_dmp.py: StateFollowingDMP.step"]}
{"id": "C59", "title": "Scalar and array parameters are normalised consistently", "statement": "ensure_1d_array maps a scalar or length-1 array to n_dims copies, returns an array of length n_dims unchanged and raises ValueError for every other input; check_1d_array_length raises exactly for a wrong length.", "quantifier": "all inputs, all n_dims", "why_tests_cant": "all lengths", "anchors": ["movement_primitives/utils.py: ensure_1d_array, check_1d_array_length"]}
{"id": "C60", "title": "Toy data covariance is well defined", "statement": "For n_steps >= 2 the finite difference matrix has full column rank, so that the matrix inverted for the trajectory covariance is invertible and the covariance is symmetric positive definite.", "quantifier": "all n_steps", "why_tests_cant": "all matrix sizes", "anchors": ["movement_primitives/data/_toy_1d.py"]}
{"id": "C61", "title": "n_steps_open_loop composes", "statement": "Running n steps open loop and then m steps from the reached state is the same as running n + m steps.", "quantifier": "all steppables, n, m and start states", "why_tests_cant": "over all steppables and run lengths", "anchors": ["movement_primitives/base.py: PointToPointMovement.n_steps_open_loop"]}
{"id": "C62", "title": "Dimensions of a DMP do not influence each other", "statement": "Without coupling terms, dimension d of a generated trajectory depends only on start, goal, gains, weights and feedback of dimension d, and the weights of dimension d learned by imitate depend only on dimension d of the demonstration (DMP, DMPWithFinalVelocity; trajectories of StateFollowingDMP).", "quantifier": "all parameters, run lengths", "why_tests_cant": "non-interference over all executions", "anchors": ["movement_primitives/dmp/_dmp.py: dmp_step_euler, dmp_step_rk4, dmp_open_loop"]}
{"id": "C63", "title": "A learned DMP does not depend on the caller's demonstration array", "statement": "After imitate(T, Y), changing the caller's array Y should not change the learned DMP. This fails: start_y and goal_y are views of the first and the last row of Y.", "quantifier": "all demonstrations, all later writes to the caller's array", "why_tests_cant": "aliasing over all histories of writes", "anchors": ["movement_primitives/dmp/_dmp.py: DMP.imitate", "movement_primitives/dmp/_base.py: DMPBase.configure"]}
{"id": "C64", "title": "A coupling term that follows a trajectory keeps its own time", "statement": "The N-th call of CouplingTermDualCartesianTrajectory.coupling after imitate couples towards the (piecewise linearly interpolated) relative pose demonstrated at time N*dt, whatever the time of the DMP is. n steps of a DualCartesianDMP call it n*ceil(dmp.dt/dmp.int_dt) times. Hence the coupling follows the time of the DMP if its dt is the DMP's int_dt and divides the DMP's dt. It runs ahead (at least twice as fast) if its dt is the DMP's dt and int_dt is smaller, as in the repository's example, and a second execution gets other couplings than the first one, because only imitate resets the clock.", "quantifier": "all demonstrations, histories of calls and steps, step sizes, states", "why_tests_cant": "depends on the number of calls before and on all step sizes", "anchors": ["movement_primitives/dmp/_coupling_terms.py: CouplingTermDualCartesianTrajectory", "movement_primitives/dmp/_dual_cartesian_dmp.py: DualCartesianDMP.step"]}
{"id": "C65", "title": "ProMP weights of a demonstration are the regularised least squares optimum", "statement": "weights(T, Y, lmbda) minimises, over all weight vectors, the sum of squared deviations of the trajectory from the demonstration at the demonstrated times plus lmbda times the squared norm of the weights. The optimum is unique if lmbda > 0 or if there are at least as many different time stamps as weights per dimension.", "quantifier": "all demonstrations, sizes, regularisation coefficients >= 0", "why_tests_cant": "optimality against all weight vectors", "anchors": ["movement_primitives/promp.py: ProMP.weights, ProMP.trajectory_from_weights"]}
{"id": "C66", "title": "Inverse kinematics of a trajectory respects its interval or the joint limits", "statement": "inverse_trajectory returns one row per pose. Without random restarts consecutive rows differ by at most interval (but may leave the joint limits, which the interval replaces); with random restarts all rows lie in the joint limits (but may differ by more than interval, and the argument solver is ignored).", "quantifier": "all sound optimisers, chains, trajectories, random numbers", "why_tests_cant": "over all solver behaviours and trajectory lengths", "anchors": ["movement_primitives/kinematics.py: Chain.inverse_trajectory"]}
{"id": "C67", "title": "Correction of tracking errors", "statement": "Passing last_y to DMP.step instead of the position the object holds adds to the result the response of the transformation system to the tracking error (held position minus last_y) times p_gain: for one Euler sub-step of length dt the velocity changes by p_gain*e/execution_time^2 and the position by dt times this, pushing the object's state further away from last_y. Finding: Euler functions apply the correction once per sub-step (so it grows with dt/int_dt) while Runge-Kutta functions apply it once per step. DualCartesianDMP.step: the same for the linear velocity of each arm; the angular velocity of each arm changes by p_gain*w/execution_time^2, where w is the rotation vector that leads from the given orientation to the one that the object holds. If results are fed back p_gain has no effect.", "quantifier": "all DMP objects, states, measured positions, gains, step functions", "why_tests_cant": "a statement about all states and measured positions, exact in all parameters", "anchors": ["movement_primitives/dmp/_dmp.py: DMP.step, dmp_step_euler, dmp_step_rk4", "movement_primitives/dmp_fast.pyx: dmp_step, dmp_step_rk4", "movement_primitives/dmp/_dual_cartesian_dmp.py: DualCartesianDMP.step, dmp_step_dual_cartesian_python"]}
{"id": "C68", "title": "ProMP imitation performs exact expectation maximization updates", "statement": "ProMP.imitate performs at most n_iter updates. In each update, every demonstration contributes the exact Gaussian posterior of its weights (minimum and curvature of filtered squared errors / noise variance + squared Mahalanobis distance to the prior); the new mean is the average of the posterior means, the new covariance the average of posterior covariances and scatter. It ends early exactly when the mean moves by less than min_delta.", "quantifier": "all demonstrations with positive durations, numbers of iterations, thresholds, positive definite priors", "why_tests_cant": "optimality against all weight vectors, any number of iterations", "anchors": ["movement_primitives/promp.py: ProMP.imitate, ProMP._expectation, ProMP._maximization"]}
{"id": "C69", "title": "Loaded LASA demonstrations", "statement": "load_lasa(i) loads the i-th file in alphabetical order (IndexError if there is none) and returns the recorded positions, velocities and accelerations with the steps in the second axis. Finding: the returned times are linspace(0, n_steps, n_steps), whose spacing n_steps/(n_steps-1) has nothing to do with the returned dt, so that finite differences over the returned times are the recorded velocities times dt*(n_steps-1)/n_steps.", "quantifier": "all data sets, shapes, numbers of demonstrations, steps and dimensions", "why_tests_cant": "must hold for every data set", "anchors": ["movement_primitives/data/_lasa.py: load_lasa, _load_from_matlab_file, _convert_demonstrations"]}
{"id": "C70", "title": "Arrays behave as values if the caller does not share them", "statement": "For every history of calls (configure, reset, step, open_loop, execution_time_, get_weights, set_weights, imitate) on a DMP, DMPWithFinalVelocity, CartesianDMP, DualCartesianDMP, StateFollowingDMP, SpringDamper or SpringDamperOrientation in which the caller neither passes an array that the object overwrites (only get_weights and StateFollowingDMP.step hand out such arrays) nor writes into an array that it has handed over, all returned values and the final object are the ones obtained when arrays are treated as values. The same holds for the results of configure, reset and step of MinimumJerkTrajectory.", "quantifier": "all heaps, views, histories of calls and caller actions", "why_tests_cant": "aliasing over all memory layouts and histories", "anchors": ["movement_primitives/base.py: PointToPointMovement", "movement_primitives/dmp/_base.py: DMPBase, WeightParametersMixin", "movement_primitives/dmp/_dmp.py: DMP", "movement_primitives/spring_damper.py"]}
{"id": "C71", "title": "Objects do not influence each other", "statement": "Whatever is called on one movement primitive, another one keeps its start, goal, current state and weights, even if both were configured with the same arrays, as long as the caller does not write into its arrays. Calls of MinimumJerkTrajectory change no array that existed before.", "quantifier": "all pairs of classes, heaps, histories of calls on the first object", "why_tests_cant": "non-interference over all histories and memory layouts", "anchors": ["movement_primitives/base.py: PointToPointMovement", "movement_primitives/dmp/_base.py: DMPBase"]}
{"id": "C72", "title": "Poses do not depend on the choice of the body frame", "statement": "Choose another frame fixed to the moving body: all orientation quaternions q become q*r for a constant unit quaternion r. If start, goal (or the demonstration) are given with the new body frame, then CartesianDMP.open_loop, CartesianDMP.step, CartesianDMP.imitate, SpringDamperOrientation.open_loop and SpringDamperOrientation.step describe the same motion with the new body frame: positions, angular velocities, weights and time stamps are the same, each orientation is multiplied by r from the right. DualCartesianDMP.open_loop, DualCartesianDMP.step and DualCartesianDMP.imitate likewise, with another body frame for each arm. With r = -1: the choice of the two quaternions of the same rotation does not matter if it is made consistently.", "quantifier": "all unit quaternions r, primitives, weights, gains, coupling terms, step functions, numbers of steps, demonstrations", "why_tests_cant": "must hold for all frames and states (an equivariance)", "anchors": ["movement_primitives/dmp/_cartesian_dmp.py: CartesianDMP", "movement_primitives/dmp_fast.pyx: dmp_step_quaternion", "movement_primitives/spring_damper.py: SpringDamperOrientation"]}
{"id": "C73", "title": "Motions do not depend on the choice of coordinates", "statement": "With the same gains in all dimensions, y -> P y + b for any linear map P (any change of the number of dimensions) applied to start and goal, with the weights mapped by P, maps every point of DMP.open_loop and DMP.step; DMP.imitate of the mapped demonstration gives the mapped weights. DMPWithFinalVelocity, StateFollowingDMP and SpringDamper likewise. DualCartesianDMP.open_loop, step and imitate do not depend on the world frames of the arms. CartesianDMP and SpringDamperOrientation are equivariant under rotations and translations of the world frame: poses, velocities and learned weights are rotated.", "quantifier": "all linear maps, offsets, rotations, primitives, weights, coupling terms, step functions, numbers of steps, demonstrations", "why_tests_cant": "must hold for all maps and states (an equivariance)", "anchors": ["movement_primitives/dmp/_dmp.py: DMP", "movement_primitives/dmp/_cartesian_dmp.py: CartesianDMP", "movement_primitives/dmp_fast.pyx", "movement_primitives/spring_damper.py"]}
{"id": "C74", "title": "Final velocity and accelerations are ignored by most primitives", "statement": "Finding: configure documents goal_yd (final velocity), goal_ydd and start_ydd, but step and open_loop of DMP, CartesianDMP, DualCartesianDMP, SpringDamper and SpringDamperOrientation return the same results whatever is configured there, and StateFollowingDMP does not even use the goal. (Only DMPWithFinalVelocity uses the final velocity, C29 and C30.)", "quantifier": "all primitives, states, coupling terms, step functions, configured final velocities and accelerations", "why_tests_cant": "non-dependence over all values and histories", "anchors": ["movement_primitives/base.py: PointToPointMovement.configure", "movement_primitives/dmp/_dmp.py: DMP", "movement_primitives/dmp/_cartesian_dmp.py: CartesianDMP", "movement_primitives/dmp/_dual_cartesian_dmp.py: DualCartesianDMP", "movement_primitives/dmp/_state_following_dmp.py: StateFollowingDMP", "movement_primitives/spring_damper.py"]}
{"id": "C75", "title": "Poses reach the goal for every weight vector", "statement": "Whatever the weights, start, goal, smooth scaling, initial pose, initial linear and angular velocity and history of a CartesianDMP: with positive gains, rotational gains that do not depend on the axis, stable position integrator and int_dt*(alpha_y+beta_y) <= execution_time, repeated step calls and open_loop bring the position to the goal with velocity 0, and the orientation so close to the goal orientation (or its antipode, which is the same orientation) that the remaining angle is at most pi*(5+8*beta_y/alpha_y)*eps, where eps is the threshold below which the quaternion logarithm is 0 (1e-16 in the Cython version), with an angular velocity of the same order. The same holds for each arm of a DualCartesianDMP (for any p_gain if the results are fed back) and for SpringDamperOrientation. Finding: within the threshold, an orientation at rest is not corrected any more.", "quantifier": "all weights, gains, poses, velocities, histories, step functions, numbers of steps", "why_tests_cant": "a limit over infinite executions on a curved space, for all weights and states", "anchors": ["movement_primitives/dmp/_dual_cartesian_dmp.py: DualCartesianDMP.step, DualCartesianDMP.open_loop, dmp_step_dual_cartesian_python", "movement_primitives/dmp/_cartesian_dmp.py: CartesianDMP.step, CartesianDMP.open_loop, dmp_step_quaternion_python", "movement_primitives/dmp_fast.pyx: dmp_step_quaternion", "movement_primitives/spring_damper.py: SpringDamperOrientation, spring_damper_step_quaternion"]}
{"id": "C76", "title": "Unforced rotations are direct", "statement": "From rest, with at least critical damping (the default) and without forcing (CartesianDMP and each arm of a DualCartesianDMP with zero rotational weights and without smooth scaling, whose p_gain is zero or whose step calls get the held pose; SpringDamperOrientation), the orientation turns about one fixed axis, from the start orientation to the goal orientation on the shorter way; the remaining angle never increases, there is no overshoot, and finally the goal is reached (up to the threshold of the quaternion logarithm) with angular velocity 0.", "quantifier": "all start and goal orientations, gains, step sizes, numbers of steps", "why_tests_cant": "must hold for all pairs of orientations and all steps of infinite executions", "anchors": ["movement_primitives/dmp/_dual_cartesian_dmp.py: DualCartesianDMP.step, DualCartesianDMP.open_loop, dmp_step_dual_cartesian_python", "movement_primitives/dmp/_cartesian_dmp.py: CartesianDMP.step, CartesianDMP.open_loop", "movement_primitives/dmp_fast.pyx: dmp_step_quaternion", "movement_primitives/spring_damper.py: SpringDamperOrientation"]}
{"id": "C77", "title": "Integrators approximate the solution of the differential equation", "statement": "The differential equation of a DMP (tau^2 y'' = alpha (beta (goal - y) - tau y' - smoothing) + forcing_term(t)) has exactly one solution for every start state. With every step function and all positive dt and int_dt, step and open_loop return states that differ from that solution, on every bounded time interval, by at most a constant times the largest integration step; hence results of different step functions and step sizes agree in the limit. The same holds for SpringDamper, whose default damping yields the critically damped response. Exception (finding): the velocity of a coupling term is added once per sub-step without the step size, so that its effect grows without bound for int_dt -> 0. Orientations of CartesianDMP: if unit quaternions q and angular velocities w solve the equation q' = w q / 2, tau^2 w' = alpha (beta log(goal conj(q)) - tau w - smoothing) + forcing_term(t), and the goal is never opposite to q, open_loop and step follow q (and w) with an error that becomes arbitrarily small with the integration step, up to a constant times the threshold below which the library treats rotations as zero; with zero weights and critical damping q is the critically damped rotation about the fixed axis to the goal. The same holds for step and open_loop of SpringDamperOrientation (w' = k log(goal conj(q)) - c w), whose default damping yields the critically damped rotation. Positions of CartesianDMP satisfy the equation of a DMP whatever the orientations are; without coupling term both arms of DualCartesianDMP (open_loop and step) follow the equations of positions and orientations. StateFollowingDMP follows tau^2 y'' = alpha (beta (attractor(t) - y) - tau y') with half the execution time as tau and the mean of the via points weighted by the activations as attractor.", "quantifier": "all reachable DMPs (weights, gains, goals, smooth scaling), all start states, all dt > 0 and int_dt > 0, all four step functions, all numbers of steps; all SpringDampers, Cartesian and dual-arm DMPs and StateFollowingDMPs", "why_tests_cant": "convergence is a statement about all step sizes and a limit; a test compares finitely many step sizes and cannot separate a wrong equation from a discretisation error", "anchors": ["movement_primitives/dmp/_dmp.py:dmp_step_euler", "movement_primitives/dmp/_dmp.py:dmp_step_rk4", "movement_primitives/dmp_fast.pyx:dmp_step", "movement_primitives/dmp/_dmp.py:DMP.open_loop", "movement_primitives/dmp/_dmp.py:DMP.step", "movement_primitives/spring_damper.py:SpringDamper", "movement_primitives/spring_damper.py:SpringDamperOrientation"]}
{"id": "C78", "title": "Integrators are selected by their documented names", "statement": "DMP.step, DMP.open_loop, CartesianDMP.open_loop and DualCartesianDMP.open_loop integrate with the function of the given name; the accepted names are exactly the documented ones. Every other name raises ValueError and leaves the object unchanged, whatever the other arguments are. Exception (finding): CartesianDMP.open_loop looks up quaternion_step_function only after the position has been integrated, so that another exception may come first.", "quantifier": "all names (strings), objects, arguments and coupling terms", "why_tests_cant": "all strings outside the table and all states of the object", "anchors": ["movement_primitives/dmp/_dmp.py: DMP_STEP_FUNCTIONS, DMP.step, DMP.open_loop", "movement_primitives/dmp/_cartesian_dmp.py: CARTESIAN_DMP_STEP_FUNCTIONS, CartesianDMP.open_loop", "movement_primitives/dmp/_dual_cartesian_dmp.py: DUAL_CARTESIAN_DMP_STEP_FUNCTIONS, DualCartesianDMP.open_loop"]}
{"id": "C79", "title": "Integration loops terminate in floating-point arithmetic", "statement": "In double precision, every call of a step function of DMP, DMPWithFinalVelocity, StateFollowingDMP, CartesianDMP, DualCartesianDMP, SpringDamper and SpringDamperOrientation that integrates with sub-steps ends if int_dt >= 2**-52 * t, whatever is computed in the sub-steps. Sub-steps are positive and at most int_dt, the time advances with each sub-step, and the time reached is t up to a relative error of 2**-51. Finding: for int_dt < 2**-54 * last_t the call never returns.", "quantifier": "all doubles last_t >= 0, t and int_dt, all correctly rounding arithmetics, all loop bodies", "why_tests_cant": "termination for all doubles; the rounding errors of tested values say nothing about others", "anchors": ["movement_primitives/dmp/_dmp.py: dmp_step_euler", "movement_primitives/dmp_fast.pyx: dmp_step, dmp_step_quaternion, dmp_step_dual_cartesian", "movement_primitives/dmp/_cartesian_dmp.py: dmp_step_quaternion_python", "movement_primitives/dmp/_dual_cartesian_dmp.py: dmp_step_dual_cartesian_python", "movement_primitives/dmp/_state_following_dmp.py: state_following_dmp_step", "movement_primitives/dmp/_dmp_with_final_velocity.py", "movement_primitives/spring_damper.py"]}
{"id": "C80", "title": "Time drift and number of rows in floating-point arithmetic", "statement": "After n calls of step the time of an object differs from n*dt by at most n**2 * dt * 2**-53. DualCartesianDMP.open_loop and StateFollowingDMP.open_loop end if dt >= 2**-52 * run_t, and their number of steps differs by at most 1 from ceil(run_t/dt) (fewer than 2**26 steps). The times returned by the other open loops are i*dt up to one rounding, and their number differs by at most 1 from ceil(run_t/dt)+1. Finding: these differences occur; for dt=1.7, run_t=11.9 DualCartesianDMP.open_loop returns 9 rows and CartesianDMP.open_loop 8, for dt=0.9, run_t=5.4 they return 7 and 8 rows.", "quantifier": "all doubles dt > 0 and run_t, all correctly rounding arithmetics, all numbers of steps", "why_tests_cant": "error bounds for all doubles and numbers of steps", "anchors": ["movement_primitives/dmp/_dual_cartesian_dmp.py: DualCartesianDMP.open_loop", "movement_primitives/dmp/_state_following_dmp.py: state_following_dmp_open_loop", "movement_primitives/dmp/_dmp.py: dmp_open_loop, DMP.step", "movement_primitives/dmp/_cartesian_dmp.py: dmp_open_loop_quaternion", "movement_primitives/spring_damper.py"]}
{"id": "C81", "title": "Order of accuracy of the Runge-Kutta integrator", "statement": "open_loop and step (positions and velocities, from any state) of a DMP, and the positions of a CartesianDMP, with rk4 or rk4-cython approximate, with an error of at most a constant times dt**4 on every bounded time interval, the solution of the differential equation whose phase and forcing term are evaluated dt ahead of time. Without forcing term and smooth scaling, this is the solution of the DMP itself, so that the method has order 4. Finding: with a forcing term the method has only order 1, because every step evaluates the forcing term one step late (from t to t+dt instead of from t-dt to t); the error is dt times the derivative of the solution with respect to a shift of the forcing term, up to a constant times dt**2, and there is a DMP with default gains and a time at which it is at least a positive constant times dt.", "quantifier": "all reachable DMPs and Cartesian DMPs (weights, gains, goals, smooth scaling), all dt > 0, both Runge-Kutta methods, all numbers of steps", "why_tests_cant": "an order of convergence is a statement about all step sizes; a test with one step size cannot separate a method of order 1 from one of order 4", "anchors": ["movement_primitives/dmp/_dmp.py: dmp_step_rk4", "movement_primitives/dmp_fast.pyx: dmp_step_rk4", "movement_primitives/dmp/_dmp.py: DMP.open_loop"]}
{"id": "C82", "title": "Python and Cython orientation steps are interchangeable", "statement": "CartesianDMP.step and CartesianDMP.open_loop give the same results with the quaternion step functions 'python' and 'cython', for every coupling term, if start and goal orientation and the passed orientation are unit quaternions, dt and execution time are positive and the quaternion functions of pytransform3d agree with those of the Cython module on unit quaternions. The step functions agree whenever the step ends after start_t, unless a coupling term and a precomputed coupling are given together. Findings: the Cython function then ignores the precomputed coupling, which the Python function adds; for steps that end at or before start_t the Python function leaves the state unchanged and the Cython function starts again from the start state.", "quantifier": "all objects, poses, velocities, coupling terms, run times, integrators of the position, step sizes", "why_tests_cant": "equality of two implementations for all inputs and numbers of sub-steps", "anchors": ["movement_primitives/dmp/_cartesian_dmp.py: dmp_step_quaternion_python, CartesianDMP.step, CartesianDMP.open_loop", "movement_primitives/dmp_fast.pyx: dmp_step_quaternion"]}
{"id": "C83", "title": "New movement primitives hold still at the origin", "statement": "A DMP, DMPWithFinalVelocity, SpringDamper or MinimumJerkTrajectory that was neither configured nor trained stays exactly at 0 with velocity 0: all rows of open_loop and all results of step that are fed back, for all gains, execution times, step sizes and integrators; its weights are 0. The mean trajectory of a new ProMP is 0. Finding: the orientation of a new CartesianDMP, DualCartesianDMP or SpringDamperOrientation is the zero vector, which is not a unit quaternion, so that the first row of its open_loop is not a pose.", "quantifier": "all constructor arguments that are accepted, run times, integrators, numbers of steps and numbers of dimensions", "why_tests_cant": "all constructor arguments and numbers of steps", "anchors": ["movement_primitives/base.py: PointToPointMovement.__init__", "movement_primitives/dmp/_dmp.py: DMP", "movement_primitives/dmp/_dmp_with_final_velocity.py: DMPWithFinalVelocity", "movement_primitives/spring_damper.py: SpringDamper, SpringDamperOrientation", "movement_primitives/minimum_jerk_trajectory.py: MinimumJerkTrajectory", "movement_primitives/promp.py: ProMP", "movement_primitives/dmp/_cartesian_dmp.py: CartesianDMP", "movement_primitives/dmp/_dual_cartesian_dmp.py: DualCartesianDMP"]}
{"id": "C84", "title": "Basis functions are normalised by a number that is bounded away from zero during the movement", "statement": "At every time between 0 and the execution time the sum of basis functions by which the forcing term of a DMP, DMPWithFinalVelocity, CartesianDMP or DualCartesianDMP divides is at least 0.8 and at most the number of basis functions, for every number of weights and after every history of calls. For a ProMP the sum is at least 0.7 ** 4 at every time between 0 and the largest time. Findings: with 600 or more weights per dimension all basis functions of a DMP are zero in double precision from 1.2 times the execution time on, so that 0 / 0 is computed when it is executed longer; the same happens in ProMP.condition_position with at least 10 weights per dimension when t is at least 5 times t_max (e.g., t = 5 with the default t_max = 1).", "quantifier": "all numbers of weights, execution times, times within the movement, histories of calls; for the findings all correct roundings to doubles", "why_tests_cant": "the bound has to hold for every number of weights and every time, and its failure depends on limits of double precision", "anchors": ["movement_primitives/dmp/_forcing_term.py: ForcingTerm._init_rbfs, ForcingTerm._activations", "movement_primitives/promp.py: ProMP._rbfs_1d_point, ProMP._rbfs_1d_sequence", "movement_primitives/dmp/_dmp.py: DMP", "movement_primitives/dmp/_cartesian_dmp.py: CartesianDMP", "movement_primitives/dmp/_dual_cartesian_dmp.py: DualCartesianDMP"]}
{"id": "C85", "title": "A DMP with final velocity comes to rest at its goal", "statement": "For every DMPWithFinalVelocity with positive gains, whatever its weights, start, goal, final velocity and acceleration and current state: if the Euler method is stable for int_dt, the results of an infinite sequence of step calls converge to the goal position with velocity 0, open_loop returns for every duration and its positions at late times are arbitrarily close to the goal. The final velocity is thus held only at the goal time.", "quantifier": "all reachable objects, weights, initial states, durations, and step sizes for which the Euler method is stable", "why_tests_cant": "limit of an infinite execution for all weights", "anchors": ["movement_primitives/dmp/_dmp_with_final_velocity.py: DMPWithFinalVelocity.step, DMPWithFinalVelocity.open_loop, dmp_step_euler_with_constraints, apply_constraints"]}
{"id": "C86", "title": "A DMP with final velocity solves its differential equation and reaches the final velocity", "statement": "There is exactly one polynomial of degree 5 that connects position, velocity and acceleration of start (time 0) and goal (execution time). Positions returned by DMPWithFinalVelocity.open_loop and positions and velocities returned by step until the end of the execution time differ from the solution of the differential equation, in which this polynomial is the moving goal, by at most a constant times the largest integration step. With weights 0 the polynomial is the solution: the object arrives at the goal position with the final velocity up to an error that is proportional to the integration step.", "quantifier": "all reachable objects, weights, dt and int_dt, numbers of steps", "why_tests_cant": "limit for all step sizes; the exact solution is not computable by a test", "anchors": ["movement_primitives/dmp/_dmp_with_final_velocity.py: DMPWithFinalVelocity.step, DMPWithFinalVelocity.open_loop, dmp_step_euler_with_constraints, solve_constraints, apply_constraints"]}
{"id": "C87", "title": "Plots show every dimension of a trajectory or distribution in its own subplot", "statement": "create_axes gives every dimension a subplot of its own if the grid has enough cells, row by row or (transpose) column by column; plot_trajectory_in_rows draws column i over time in the subplot of dimension i and nothing else, with the axes of an earlier plot it only adds lines; plot_distribution_in_rows draws the mean and for each factor the area of mean -/+ factor times standard deviation, these areas contain the mean and are nested. With too few cells and without transpose an error is raised and nothing is drawn. Findings: with transpose, a grid with one cell too few is accepted and two dimensions share a subplot; dashed lines without color raise an error; if the last row of the grid is empty no subplot has a label of the time axis.", "quantifier": "all trajectories, distributions, numbers of dimensions, grids, factors and earlier contents of the figure", "why_tests_cant": "all numbers of dimensions and shapes of grids", "anchors": ["movement_primitives/plot.py: create_axes, plot_trajectory_in_rows, plot_distribution_in_rows"]}
{"id": "C88", "title": "Keys that toggle geometries and point clouds in 3D views", "statement": "plot_pointcloud adds exactly the returned point cloud to the figure, with one colour per point, and with down-sampling by k it keeps exactly the points whose index is a multiple of k. Pressing and releasing the key of a ToggleGeometry shows the geometry if no modifier key is held and hides it otherwise, after every history of key events. Findings: without a modifier key the geometry is never hidden, with modifier keys a hidden geometry stays hidden, and the attribute show does not tell whether the geometry is visible.", "quantifier": "all point clouds, down-sampling factors, sequences of key events", "why_tests_cant": "unbounded histories of events", "anchors": ["movement_primitives/visualization.py: plot_pointcloud, ToggleGeometry"]}
{"id": "C89", "title": "Poses of the simulated robots are converted consistently", "statement": "Conversions between poses (x, y, z, qw, qx, qy, qz) and poses of PyBullet describe the same rigid transformation and are inverse to each other. UR5Simulation: if the end effector has the pose that was requested from inverse kinematics, get_ee_state returns the commanded pose, for every base pose; if the base is at the origin it returns pose and linear velocity in the world. RH5Simulation.get_ee_state returns the poses of the left and of the right end effector in the world. Findings: for other base poses the pose of UR5Simulation.get_ee_state is not the pose relative to the base, and the velocity of a robot that does not move is 0 only if the base is at the origin.", "quantifier": "all poses, unit base poses, states of the simulated world", "why_tests_cant": "identities for all poses", "anchors": ["movement_primitives/testing/simulation.py: _pybullet_pose, _pytransform_pose, UR5Simulation.get_ee_state, UR5Simulation.inverse_kinematics, RH5Simulation.get_ee_state"]}
{"id": "C90", "title": "Commands reach the right joints and an ideal robot follows the trajectory", "statement": "set_desired_joint_state of UR5Simulation and RH5Simulation sends element k of the array to the joint that is number k in the result of get_joint_state and changes nothing else. If joints follow the commanded velocities exactly and inverse kinematics is exact, step_through_cartesian of UR5Simulation and of RH5Simulation returns and every measured pose after the first one is equal to the desired pose.", "quantifier": "all simulated worlds, joint numberings, objects with a step method, execution times, open or closed loop", "why_tests_cant": "every physics engine and every controlled object", "anchors": ["movement_primitives/testing/simulation.py: UR5Simulation.set_desired_joint_state, UR5Simulation.set_desired_ee_state, UR5Simulation.step_through_cartesian, RH5Simulation.set_desired_joint_state, RH5Simulation.step_through_cartesian"]}
{"id": "C91", "title": "Logs of simulated executions are complete and aligned", "statement": "When step_through_cartesian returns, all four arrays have 1 + int(execution_time / dt) rows; the first rows are the given and the measured state; desired rows are the results of the calls of step; call i gets the desired pose i (closed loop: the measured pose i) and the desired velocity i. UR5Simulation ends with a simulation step in which velocity 0 is commanded. SimulationMockup logs an ideal robot, with a new DMP exactly the positions of its open_loop. Findings: a UR5Simulation that is not the first simulation of the process sends its commands to the first one, so that its own robot never moves; the measured velocities of RH5Simulation are the desired velocities; if step raises an exception, UR5Simulation and RH5Simulation do not stop the robot.", "quantifier": "all simulated worlds, objects with a step method, execution times, open or closed loop", "why_tests_cant": "every physics engine, controlled object and number of steps", "anchors": ["movement_primitives/testing/simulation.py: UR5Simulation.step_through_cartesian, RH5Simulation.step_through_cartesian, SimulationMockup.step_through_cartesian"]}
{"id": "C92", "title": "Names of joints and links are mapped to the right indices", "statement": "analyze_robot maps the name of every joint and of every child link to its number, and every joint that is not fixed to its position among the joints that are not fixed; unknown joint types raise ValueError. KinematicsChain.inverse selects the angles of exactly the joints of the chain in the given order and its commands are for the same joints. Creating a KinematicsChain succeeds iff all given joints are names of joints that are not fixed and the end effector is the name of a child link; otherwise KeyError is raised. For UR5Simulation the first six values of inverse kinematics are the angles of the joints that commands are sent to, if all movable joints are revolute joints. Finding: the base link cannot be looked up by its name.", "quantifier": "all robots with any number of joints, fixed joints, chains", "why_tests_cant": "all kinematic structures", "anchors": ["movement_primitives/testing/simulation.py: analyze_robot, _joint_type, KinematicsChain, UR5Simulation.__init__"]}
{"id": "C93", "title": "Simulation loops end and drawings of trajectories are complete", "statement": "sim_loop(n_steps) makes n_steps steps or stops without error when the connection is closed; sim_loop() runs until the connection is closed and forever if it is not. UR5Simulation.goto_ee_state commands the solution of inverse kinematics as positions and simulates int(wait_time / dt) steps. KinematicsChain.goto_joint_state simulates until the joints are closer to the goal than joint_state_eps, at least one and at most max_steps_to_joint_state steps. draw_trajectory draws frames at n_key_frames valid indices in ascending order from the first to the last pose and connects all consecutive poses.", "quantifier": "all simulated worlds, numbers of steps, waiting times, tolerances, trajectories", "why_tests_cant": "every physics engine, closing of the connection at every step, all lengths", "anchors": ["movement_primitives/testing/simulation.py: PybulletSimulation.sim_loop, PybulletSimulation.step, UR5Simulation.goto_ee_state, KinematicsChain.goto_joint_state, draw_trajectory"]}
{"id": "C94", "title": "Arrays of the wrong length are rejected by step before anything changes", "statement": "DMP.step, CartesianDMP.step, DualCartesianDMP.step and StateFollowingDMP.step raise AssertionError if last_y or last_yd does not have the right length, and the object is as before. Findings: DMPWithFinalVelocity.step, SpringDamper.step and SpringDamperOrientation.step do not check lengths: an array of length 1 is repeated (DMPWithFinalVelocity never looks at last_yd at all), and other lengths raise ValueError when the time of the object has advanced already, for SpringDamper and SpringDamperOrientation possibly after the stored position has been overwritten.", "quantifier": "all objects, arrays of any length, coupling terms and step functions", "why_tests_cant": "all lengths and all states of the object", "anchors": ["movement_primitives/dmp/_dmp.py: DMP.step", "movement_primitives/dmp/_cartesian_dmp.py: CartesianDMP.step", "movement_primitives/dmp/_dual_cartesian_dmp.py: DualCartesianDMP.step", "movement_primitives/dmp/_state_following_dmp.py: StateFollowingDMP.step", "movement_primitives/dmp/_dmp_with_final_velocity.py: DMPWithFinalVelocity.step", "movement_primitives/spring_damper.py: SpringDamper.step, SpringDamperOrientation.step"]}
{"id": "C95", "title": "Forward and inverse kinematics of trajectories are consistent", "statement": "Chain.forward_trajectory returns the poses that Chain.forward returns for each row, and Chain.inverse evaluates the same function of the joint angles at each call of the optimiser, whatever was computed with the chain before. Chain.inverse_trajectory without random restarts calls the optimiser once per row with the previous solution as initial guess and with the given solver and interval; if every call ends with an error below the bound, every row has this accuracy, and if solutions are exact, forward_trajectory returns the desired poses. Several chains of a robot do not influence each other if each chain contains the movable joints on its path. Findings: with random restarts the interval is never used and the solver only for the first pose and only if initial joint angles are given; a chain without all joints on its path returns different poses after another chain has been used.", "quantifier": "all kinematic trees, chains, trajectories, optimisers and histories of calls", "why_tests_cant": "the chains share mutable state; every history of calls and every optimiser", "anchors": ["movement_primitives/kinematics.py: Chain.forward, Chain.forward_trajectory, Chain.inverse, Chain.inverse_with_random_restarts, Chain.inverse_trajectory, Kinematics.create_chain"]}
{"id": "C96", "title": "Weights are determined by the movement they generate", "statement": "Two sets of weights with which the forcing term of a DMP, DMPWithFinalVelocity, CartesianDMP or DualCartesianDMP takes the same values at 2**n_weights_per_dim - 1 different times are equal; so are two sets of weights with which DMP.open_loop (Euler, one integration step per time step) returns the same trajectory of at least 2**n_weights_per_dim points. imitate of DMP, CartesianDMP and DualCartesianDMP from that many time stamps over the execution time has a unique solution also without regularization, and DMP.imitate finds the weights that generate the demonstrated forces if there are any. For ProMP as many different times as weights per dimension are sufficient: mean_trajectory determines the mean weights, and weights(T, Y, lmbda=0) finds the weights of a generated trajectory.", "quantifier": "all primitives after any history of calls, all weights, numbers of weights, sets of times, demonstrations", "why_tests_cant": "uncountably many weights and times; identifiability is a statement about all pairs of weights", "anchors": ["movement_primitives/dmp/_forcing_term.py: ForcingTerm", "movement_primitives/dmp/_dmp.py: DMP.open_loop, DMP.imitate", "movement_primitives/dmp/_cartesian_dmp.py: CartesianDMP.imitate", "movement_primitives/dmp/_dual_cartesian_dmp.py: DualCartesianDMP.imitate", "movement_primitives/promp.py: ProMP.weights, ProMP.mean_trajectory"]}
{"id": "C97", "title": "A ProMP with enough weights reproduces a demonstration exactly", "statement": "If n_weights_per_dim is at least the number of (different) time stamps of a demonstration, trajectory_from_weights(T, weights(T, Y, lmbda=0)) is Y. With lmbda > 0 the squared error is at most proportional to lmbda.", "quantifier": "all demonstrations, numbers of dimensions, weights and time stamps", "why_tests_cant": "all demonstrations of all lengths", "anchors": ["movement_primitives/promp.py: ProMP.weights, ProMP.trajectory_from_weights"]}
{"id": "C98", "title": "A precomputed coupling acts like an additional coupling term", "statement": "dmp_step_euler_with_constraints (DMPWithFinalVelocity) adds the velocity and acceleration of coupling_term_precomputed to those of the coupling term; without coupling term it acts like a constant coupling term. For the four step functions of DMP this is so for the acceleration if there is no coupling term, and for the Cython Euler step also for the velocity. Findings: the other three ignore the precomputed velocity, and all four ignore a precomputed coupling if there is a coupling term.", "quantifier": "all step functions, arguments, coupling terms, precomputed couplings and states", "why_tests_cant": "all coupling terms and states", "anchors": ["movement_primitives/dmp/_dmp.py: dmp_step_euler, dmp_step_rk4", "movement_primitives/dmp_fast.pyx: dmp_step, dmp_step_rk4", "movement_primitives/dmp/_dmp_with_final_velocity.py: dmp_step_euler_with_constraints"]}
{"id": "C99", "title": "Arrays that a ProMP shares with its caller", "statement": "ProMP.imitate has the outcome given by the values of the arrays at the call, even if several demonstrations share one array of times; only the arrays of times that it used are modified (divided by their largest entry). No method of a ProMP modifies an array with a mean or covariance of weights: after any program such arrays have the entries that the caller assigned last. An object keeps its distribution whatever is done with other objects, even if they share arrays. Objects created by the constructor or condition_position and objects after imitate own their arrays. from_weight_distribution keeps the arrays of the caller, so that later assignments to their entries change the distribution of all objects that use them.", "quantifier": "all programs that use any number of ProMPs and arrays: all sequences of constructor calls, from_weight_distribution, condition_position, queries, imitate and assignments to array entries", "why_tests_cant": "all interleavings of operations on objects that may share arrays", "anchors": ["movement_primitives/promp.py: ProMP.__init__, ProMP.from_weight_distribution, ProMP.condition_position, ProMP.imitate, ProMP._rbfs_1d_sequence"]}
{"id": "C100", "title": "Arrays of integers are never rounded silently while a DMP is executed", "statement": "configure keeps the data type of the arrays it is given. step and open_loop of DMP, DMPWithFinalVelocity, CartesianDMP and DualCartesianDMP either return what they would return for the same numbers stored as floating-point numbers or raise an exception; arrays of floating-point numbers behave as described by the other properties, and imitate treats them so as well. Findings: start positions or velocities made of integers raise TypeError (Python step functions) or ValueError (Cython step functions), after the time has been advanced and, with the Euler method in Python, after the velocity has been changed; goals made of integers raise ValueError with the Cython step functions. Only a CartesianDMP whose clock has been set to a time before the start returns rounded numbers (Euler's method in Python). imitate, in contrast, rounds velocities and accelerations of a demonstration made of integers toward zero: the result is that of the same numbers stored as floating-point numbers if all of them are whole numbers, but a demonstration slower than one unit per unit of time is treated as if it did not move. The DMP that imitated a demonstration made of integers cannot be executed until start and goal are replaced. The same holds for SpringDamper. Finding: SpringDamperOrientation does round silently if its start orientation is made of integers: from np.array([1, 0, 0, 0]) open_loop returns zero vectors, which are not orientations.", "quantifier": "all DMPs and spring-damper systems after any history of calls, all step functions, coupling terms, run times, start and goal configurations, demonstrations of all lengths, in arrays of integers or floating-point numbers", "why_tests_cant": "all combinations of data types, numbers and histories", "anchors": ["movement_primitives/dmp/_dmp.py: DMP.step, DMP.open_loop, DMP.imitate, DMP.determine_forces, dmp_open_loop, dmp_step_rk4, dmp_step_euler", "movement_primitives/dmp/_dmp_with_final_velocity.py: DMPWithFinalVelocity, determine_forces, dmp_step_euler_with_constraints", "movement_primitives/dmp_fast.pyx: dmp_step, dmp_step_rk4", "movement_primitives/spring_damper.py: SpringDamper, SpringDamperOrientation, spring_damper_step, spring_damper_step_quaternion", "movement_primitives/base.py: PointToPointMovement.configure"]}
{"id": "C101", "title": "Superposition of movements", "statement": "Without coupling term, the movement of a DMP whose start, goal and weights are p times those of one plus q times those of another DMP (with the same gains, times and basis functions) is p times the movement of the first plus q times the movement of the second one: for open_loop with each of the integrators row by row and with the same time stamps, for step including tracking-error feedback with results, state and feedback mixed in the same way. imitate is linear as well: a mixture of two demonstrations with the same time stamps gives the mixture of the learned DMPs, and it raises an exception for all of them or none. The same holds for DMPWithFinalVelocity, where velocities and accelerations at start and goal are mixed, too, and for open_loop and step of SpringDamper and StateFollowingDMP (whose start and via points are mixed).", "quantifier": "all pairs of objects that differ only in start, goal, state and weights, all p and q, integrators, run times, demonstrations of all lengths", "why_tests_cant": "uncountably many pairs of movements", "anchors": ["movement_primitives/dmp/_dmp.py: DMP, dmp_open_loop, dmp_step_rk4, dmp_step_euler, dmp_imitate", "movement_primitives/dmp_fast.pyx: dmp_step, dmp_step_rk4", "movement_primitives/dmp/_dmp_with_final_velocity.py: DMPWithFinalVelocity", "movement_primitives/spring_damper.py: SpringDamper", "movement_primitives/dmp/_state_following_dmp.py: StateFollowingDMP"]}
{"id": "C102", "title": "The time step does not influence the movement", "statement": "If dt is a multiple of int_dt, then the time step only selects which configurations of a movement are returned: an object with a K times larger dt returns every K-th row of open_loop, with the same time stamps, and one call of its step returns what K calls of step, each with the results of the previous one, return; the object ends in the same state. This holds with all coupling terms for DMP with the Euler methods, DMPWithFinalVelocity, CartesianDMP, DualCartesianDMP (without p_gain, or starting from the configuration that the DMP expects), StateFollowingDMP, SpringDamper and SpringDamperOrientation. It does not hold for the Runge-Kutta methods.", "quantifier": "all objects, coupling terms, run times, factors K and time steps that are multiples of int_dt", "why_tests_cant": "all factors, run times and coupling terms", "anchors": ["movement_primitives/dmp/_dmp.py: DMP, dmp_open_loop, dmp_step_euler", "movement_primitives/dmp_fast.pyx: dmp_step, dmp_step_quaternion, dmp_step_dual_cartesian", "movement_primitives/dmp/_cartesian_dmp.py: CartesianDMP", "movement_primitives/dmp/_dual_cartesian_dmp.py: DualCartesianDMP", "movement_primitives/dmp/_dmp_with_final_velocity.py: DMPWithFinalVelocity", "movement_primitives/dmp/_state_following_dmp.py: StateFollowingDMP", "movement_primitives/spring_damper.py: SpringDamper, SpringDamperOrientation"]}
{"id": "C103", "title": "Learning a ProMP makes the demonstrations more likely", "statement": "Each iteration of ProMP.imitate replaces the mean and the covariance of the weights such that the demonstrations, with the noise variance used in this iteration, are at least as likely as before, and more likely unless neither changes. With the noise variance that maximises the expected likelihood the complete iteration could not make the demonstrations less likely. Finding: the code divides the squared errors by a number that grows with the size of the mean weights instead, and the complete iteration can make the demonstrations less likely than before.", "quantifier": "all reachable ProMPs with positive definite covariance of the weights, all lists of demonstrations of all lengths, numbers of iterations and thresholds", "why_tests_cant": "all demonstrations and prior distributions", "anchors": ["movement_primitives/promp.py: ProMP.imitate, ProMP._expectation, ProMP._maximization"]}
{"id": "C104", "title": "Small changes have small effects", "statement": "For every DMP without coupling term whose integrator is stable there is a constant K such that changing start, goal and weights by at most delta (in each component) changes every row that open_loop returns by at most K*delta, however long it runs. imitate with two demonstrations with the same time stamps whose positions differ by at most delta raises for both or for none of them and learns starts, goals and weights that differ by at most K*delta; hence the movements reproduced from them differ by at most K*delta. The same holds for DMPWithFinalVelocity, where velocities and accelerations at start and goal are changed, too, for SpringDamper, for the positions of CartesianDMP and for start and via points of StateFollowingDMP. Finding: it does not hold for goal orientations of a CartesianDMP: even without forcing term and with critically damped gains there are goal orientations arbitrarily close to each other whose trajectories differ by 90 degrees or more at some time.", "quantifier": "all pairs of objects that differ in start, goal, state and weights, all sizes of the change, integrators with stable gains and step sizes, run times, demonstrations of all lengths", "why_tests_cant": "the bound must hold for all changes and all run times at once", "anchors": ["movement_primitives/dmp/_dmp.py: DMP, dmp_open_loop, dmp_step_rk4, dmp_step_euler, dmp_imitate", "movement_primitives/dmp_fast.pyx: dmp_step, dmp_step_rk4", "movement_primitives/dmp/_dmp_with_final_velocity.py: DMPWithFinalVelocity", "movement_primitives/spring_damper.py: SpringDamper", "movement_primitives/dmp/_state_following_dmp.py: StateFollowingDMP", "movement_primitives/dmp/_cartesian_dmp.py: CartesianDMP, dmp_step_quaternion_python", "movement_primitives/dmp_fast.pyx: dmp_step_quaternion"]}
{"id": "C105", "title": "Bounded disturbances have bounded effects", "statement": "The state passed to step is in practice measured on a robot. For every movement primitive with a stable integrator (DMP, DMPWithFinalVelocity, SpringDamper, StateFollowingDMP, positions of CartesianDMP and of both arms of DualCartesianDMP) there is a constant K, independent of start, goal and weights and of the number of calls, such that measurements that deviate by at most delta from the state that was commanded change every position and velocity returned by step by at most K * delta. In particular a DMP with positive p_gain finally stays at its goal up to K * delta.", "quantifier": "all objects with positive gains and a stable integrator, all goals, starts, weights, all sequences of measurements, all numbers of calls", "why_tests_cant": "tests run a few executions with particular noise; they cannot exclude that a sequence of errors accumulates", "anchors": ["movement_primitives/dmp/_dmp.py: DMP.step, dmp_step_euler, dmp_step_rk4", "movement_primitives/dmp_fast.pyx: dmp_step, dmp_step_rk4, dmp_step_dual_cartesian", "movement_primitives/dmp/_dmp_with_final_velocity.py: DMPWithFinalVelocity.step", "movement_primitives/spring_damper.py: SpringDamper.step", "movement_primitives/dmp/_state_following_dmp.py: StateFollowingDMP.step", "movement_primitives/dmp/_cartesian_dmp.py: CartesianDMP.step", "movement_primitives/dmp/_dual_cartesian_dmp.py: DualCartesianDMP.step"]}
{"id": "C106", "title": "Movements reach their goals in double precision", "statement": "Computations in double precision instead of real numbers neither make step or open_loop of SpringDamper or DMP fail or loop forever, nor prevent the movement from approaching its goal: with positive gains (for the Runge-Kutta method: beta at most alpha/4, the case without overshooting), a stable integrator and at most 2**43 calls, position and velocity decay exponentially to the goal up to an explicit floor of rounding errors (default SpringDamper: after n calls at most 3/2*exp(-n/4001) of the initial distance plus 1e-10 of the size of the goal; default DMP with forces of at most P*exp(-5t/2): 2*exp(-n/81) times initial distance, velocity and P, plus 1e-10 of the size of the goal; with the Euler integrator and P*exp(-t/4): 5*exp(-n/801), plus 1e-11). Finding: the goal is not always reached exactly; from some states the default SpringDamper does not move any more although its velocity is not zero.", "quantifier": "all roundings to nearest, all objects with positive gains and a stable integrator, starts, goals, arguments of step, numbers of calls up to 2**43, all values of the forcing term", "why_tests_cant": "rounding errors depend on every bit of every intermediate result; tests sample a few executions", "anchors": ["movement_primitives/spring_damper.py: SpringDamper.step, SpringDamper.open_loop, spring_damper_step", "movement_primitives/dmp/_dmp.py: DMP.step, DMP.open_loop, dmp_open_loop, dmp_step_euler, dmp_step_rk4", "movement_primitives/dmp_fast.pyx: dmp_step, dmp_step_rk4"]}
{"id": "C107", "title": "Coupled movements end at a compromise", "statement": "With CouplingTermPos1DToPos1D or CouplingTermPos3DToPos3D (nonnegative gains, at least one follower, equal gains of the DMP for the coupled dimensions) and a stable integrator, step and open_loop never fail and the positions converge, whatever start, weights and current state, to an explicit compromise between the goals and the desired displacement. If the goals have the desired displacement both goals are reached and the velocities vanish; a leader always reaches its own goal. Findings: the desired displacement is attained only if the goals have it already, otherwise a fixed fraction of the conflict remains; where the movement ends depends on int_dt with the Euler methods, because the coupling velocity is added once per integration step; the Euler method in Python and the Cython version end at different positions, and Python and Runge-Kutta step functions report velocities different from zero for a follower that stands still; the acceleration of the three-dimensional coupling is not multiplied by c1, unlike in one dimension.", "quantifier": "all reachable DMPs with 2 or 6 dimensions, coupling parameters, the four step functions with stable step sizes, weights, starts, goals, infinite executions and trajectories of all durations", "why_tests_cant": "a limit over infinitely many calls, for all weights and coupling parameters", "anchors": ["movement_primitives/dmp/_coupling_terms.py: CouplingTermPos1DToPos1D, CouplingTermPos3DToPos3D", "movement_primitives/dmp/_dmp.py: DMP.step, DMP.open_loop, dmp_step_euler, dmp_step_rk4", "movement_primitives/dmp_fast.pyx: dmp_step, dmp_step_rk4"]}
{"id": "C108", "title": "DMPs can represent every movement", "statement": "The forcing term can approximate every continuous force: for every continuous function and every tolerance there is a number of weights per dimension from which on some weights make the forcing term of every DMP deviate from the function by less than the tolerance at all times of the movement. Hence for every twice continuously differentiable movement, all gains, goals, with and without smooth scaling, and every tolerance eps, every DMP with enough weights has weights with which open_loop (for movements that start at rest) and repeated calls of step (with any initial velocity; positions and velocities) reproduce the movement with an error of less than eps at every time stamp, with all step functions and all sufficiently small step sizes. Such objects can be made with the constructor, configure and set_weights. The same holds for the positions of CartesianDMP with open_loop and step, whatever the orientations are. The orientations of CartesianDMP can represent every twice continuously differentiable movement of an orientation whose angle to the goal stays below pi (up to a constant times the threshold below which the library treats rotations as zero), with open_loop and step. DualCartesianDMP can represent all such movements of the poses of both arms, with open_loop (p_gain = 0) and with step (any p_gain for an object that has not been executed before).", "quantifier": "all movements with continuous acceleration, durations, dimensions, gains, goals, tolerances, all sufficiently large numbers of weights, step functions and sufficiently small step sizes", "why_tests_cant": "existence for all functions of a space of infinite dimension and all tolerances", "anchors": ["movement_primitives/dmp/_forcing_term.py: ForcingTerm", "movement_primitives/dmp/_dmp.py: DMP.open_loop, DMP.step, DMP.set_weights, dmp_step_euler, dmp_step_rk4", "movement_primitives/dmp_fast.pyx: dmp_step, dmp_step_rk4"]}
{"id": "C109", "title": "Imitated movements are reproduced", "statement": "imitate followed by open_loop or step reproduces the demonstration: for every twice continuously differentiable movement that ends at rest (or with allow_final_velocity), all gains, every regularization coefficient that is not negative, with and without smooth scaling, and every tolerance eps, there is a number of weights from which on, if the movement is sampled at sufficiently many equidistant times, imitate succeeds and afterwards open_loop (for movements that start at rest) and repeated calls of step (with the initial velocity configured; positions and velocities) deviate by less than eps from the movement at every time stamp, with all step functions and all sufficiently small step sizes. This holds although the accelerations that imitate computes for the first two and last two samples are wrong. The same holds for the positions of a CartesianDMP (open_loop and step) and of both arms of a DualCartesianDMP (p_gain = 0 for open_loop; beta_y a scalar with smooth scaling), whatever the orientations are. The orientations (angle of the rotation between demonstrated and executed orientation) and angular velocities of a CartesianDMP and of both arms of a DualCartesianDMP (p_gain = 0 for open_loop, any p_gain for step) reproduce every twice continuously differentiable movement of an orientation that stays less than half a turn away from the final orientation, up to eps plus a constant times the threshold of the quaternion step function and the threshold of the quaternion functions of imitate times the squared number of samples (rotations below the threshold are treated as zero in second differences).", "quantifier": "all movements with continuous acceleration, durations, dimensions, gains, regularization coefficients, tolerances, all sufficiently large numbers of weights and samples, step functions and sufficiently small step sizes", "why_tests_cant": "a limit over numbers of weights, samples and step sizes, for all functions of a space of infinite dimension", "anchors": ["movement_primitives/dmp/_cartesian_dmp.py: CartesianDMP.imitate, CartesianDMP.open_loop, CartesianDMP.step, determine_forces_quaternion, dmp_quaternion_imitate, dmp_step_quaternion_python", "movement_primitives/dmp/_dual_cartesian_dmp.py: DualCartesianDMP.imitate, DualCartesianDMP.open_loop, DualCartesianDMP.step", "movement_primitives/dmp/_dmp.py: DMP.imitate, DMP.open_loop, DMP.step, determine_forces, dmp_imitate, ridge_regression, dmp_step_euler, dmp_step_rk4", "movement_primitives/dmp/_forcing_term.py: ForcingTerm", "movement_primitives/dmp_fast.pyx: dmp_step, dmp_step_rk4"]}
{"id": "C110", "title": "ProMPs can represent every distribution of trajectories", "statement": "For every distribution of trajectories whose mean and covariance are continuous functions of time (with a positive semidefinite covariance function between all times and dimensions) and every tolerance eps, every ProMP with enough weights per dimension has a weight distribution with a positive semidefinite covariance such that after from_weight_distribution the results of mean_trajectory, cov_trajectory and var_trajectory deviate by less than eps from the mean, covariance and variance of the distribution, for every array of times. Every continuous trajectory is approximated in the same way by trajectory_from_weights, and the weights computed by weights from sufficiently many samples reproduce the trajectory with a root mean square error of at most eps, for every regularization coefficient.", "quantifier": "all distributions with continuous mean and covariance functions, dimensions, tolerances, all sufficiently large numbers of weights, all arrays of times, all regularization coefficients that are not negative", "why_tests_cant": "existence for all functions of a space of infinite dimension, all covariance functions and all tolerances", "anchors": ["movement_primitives/promp.py: ProMP.from_weight_distribution, ProMP.mean_trajectory, ProMP.cov_trajectory, ProMP.var_trajectory, ProMP.trajectory_from_weights, ProMP.weights, ProMP._rbfs_1d_sequence, ProMP._rbfs_nd_sequence"]}
{"id": "C111", "title": "A DMP with final velocity reproduces imitated movements", "statement": "DMPWithFinalVelocity.imitate followed by open_loop or step reproduces the demonstration including its final velocity: for every twice continuously differentiable movement that starts at rest (with any final velocity and acceleration), all gains, every regularization coefficient that is not negative and every tolerance eps, there is a number of weights from which on, if the movement is sampled at sufficiently many equidistant times, imitate succeeds, the configured final velocity is that of the movement up to eps, and afterwards open_loop (positions) and repeated calls of step (positions and velocities) deviate by less than eps from the movement at every time stamp up to its end, for all sufficiently small step sizes. Finding: a movement with an initial velocity is not reproduced, because imitate always configures the initial velocity 0.", "quantifier": "all movements with continuous acceleration that start at rest, durations, dimensions, gains, regularization coefficients, tolerances, all sufficiently large numbers of weights and samples, all sufficiently small step sizes", "why_tests_cant": "a limit over numbers of weights, samples and step sizes, for all functions of a space of infinite dimension", "anchors": ["movement_primitives/dmp/_dmp_with_final_velocity.py: DMPWithFinalVelocity.imitate, DMPWithFinalVelocity.open_loop, DMPWithFinalVelocity.step, determine_forces, solve_constraints, apply_constraints, dmp_step_euler_with_constraints", "movement_primitives/dmp/_dmp.py: dmp_imitate, ridge_regression", "movement_primitives/dmp/_forcing_term.py: ForcingTerm"]}
{"id": "C112", "title": "A dual-arm DMP without coupling term is two Cartesian DMPs", "statement": "Without coupling term, both arms of a DualCartesianDMP move independently, each exactly like a CartesianDMP with the same parameters, start, goal and weights, Euler integration and the same quaternion functions: open_loop (p_gain = 0, start at rest) returns the same times and poses, step the same poses and velocities if p_gain = 0 or if each call gets the poses that the previous one returned, beginning with the start poses. With smooth scaling this holds for the right arm only if the entries of beta_y that belong to it are equal (C37). imitate of the DualCartesianDMP succeeds or raises like imitate of the two CartesianDMPs with the poses of the arms and leaves the parameters of the same pair of CartesianDMPs; its weight vector is that of the left arm followed by that of the right arm (get_weights, set_weights).", "quantifier": "all dual-arm DMPs and Cartesian DMPs with the parameters of an arm, run times, numbers of steps, states passed to step, step functions", "why_tests_cant": "must hold for all parameters, weights, states and numbers of steps", "anchors": ["movement_primitives/dmp/_dual_cartesian_dmp.py: DualCartesianDMP.open_loop, DualCartesianDMP.step, dmp_step_dual_cartesian_python", "movement_primitives/dmp/_cartesian_dmp.py: CartesianDMP.open_loop, CartesianDMP.step, dmp_step_quaternion_python", "movement_primitives/dmp/_dmp.py: dmp_step_euler", "movement_primitives/dmp_fast.pyx: dmp_step_dual_cartesian, dmp_step_quaternion, dmp_step"]}
{"id": "C113", "title": "The plot of a potential field shows the accelerations of potential_field_2d", "statement": "plot_potential_field_2d draws at each grid point a green, a red, a yellow and a black arrow: the accelerations of the transformation system, the forcing term, the obstacle avoidance and their sum as returned by potential_field_2d, all in the same unit, so that the black arrow is the sum of the other ones. No component of a black arrow is longer than 1 / n_ticks of the width of the plot and the longest one is exactly that long unless all accelerations are 0. Findings: exaggerate_arrows, documented as factor of the arrow sizes, does not change the arrows that are shown as long as it is positive; one tick with an obstacle raises an IndexError after two of the four layers have been drawn.", "quantifier": "all DMPs in all states, ranges, numbers of ticks, obstacles, factors", "why_tests_cant": "must hold for all states of the DMP, grids and factors", "anchors": ["movement_primitives/dmp_potential_field.py: plot_potential_field_2d, potential_field_2d", "movement_primitives/dmp/_coupling_terms.py: obstacle_avoidance_acceleration_2d"]}
{"id": "C114", "title": "The signs of quaternions do not matter", "statement": "Every orientation is represented by two unit quaternions, q and -q. A CartesianDMP does not depend on which one is used (nor do SpringDamperOrientation and DualCartesianDMP): if the quaternions of start, goal or the state passed to step are replaced by their negatives, step and open_loop return the same positions and velocities, and the same orientations up to the sign of their quaternions; weights learned with imitate do not depend on the signs of the quaternions in the demonstration, even if the signs change from one time step to the next. Exception (finding): an orientation that is turned by exactly 180 degrees from the goal; there g and -g pull into opposite directions.", "quantifier": "All CartesianDMPs with positive execution time, all unit quaternions and all choices of signs such that no orientation of the trajectory (of the demonstration) is turned by exactly 180 degrees from the goal (from its neighbours), all coupling terms that do not depend on the sign, all step functions; all multiples dt of int_dt.", "why_tests_cant": "Which sign a quaternion has depends on the software that recorded it, so there are 2^n variants of every demonstration; a test can compare a few.", "anchors": ["movement_primitives/dmp/_cartesian_dmp.py: dmp_step_quaternion_python, dmp_quaternion_imitation, CartesianDMP.step, CartesianDMP.open_loop, CartesianDMP.imitate", "movement_primitives/dmp_fast.pyx: dmp_step_quaternion, compact_axis_angle_from_quaternion", "movement_primitives/spring_damper.py: spring_damper_step_quaternion, SpringDamperOrientation.step, SpringDamperOrientation.open_loop", "movement_primitives/dmp/_dual_cartesian_dmp.py: DualCartesianDMP.open_loop, DualCartesianDMP.imitate"]}
{"id": "C115", "title": "Without forcing term movements are direct", "statement": "A DMP whose weights are all zero (a new one or one after set_weights) with gains that are at least critically damped (alpha >= 4 beta, as by default) that starts at rest moves directly to the goal: in every dimension the positions of open_loop, and the positions returned by repeated calls of step, always are between start and goal and never move away from the goal, velocities never point away from it, and with equal gains in all dimensions the movement is on the straight line. This holds for all four step functions, with and without smooth scaling, if the steps of the integrator are not longer than execution_time / alpha. The same is true of positions of CartesianDMP and of both arms of DualCartesianDMP, and of SpringDamper with default or higher damping.", "quantifier": "All DMPs with zero weights, all starts and goals, numbers of dimensions, gains with alpha >= 4 beta > 0, execution times, dt and int_dt below the bound, all step functions, both values of smooth_scaling, all numbers of steps.", "why_tests_cant": "Overshoot at any step for any combination of gains and step sizes would violate it; tests look at a few trajectories.", "anchors": ["movement_primitives/dmp/_dmp.py: dmp_step_euler, dmp_step_rk4, DMP.step, DMP.open_loop", "movement_primitives/dmp_fast.pyx: dmp_step, dmp_step_rk4", "movement_primitives/dmp/_cartesian_dmp.py: CartesianDMP.step, CartesianDMP.open_loop", "movement_primitives/dmp/_dual_cartesian_dmp.py: DualCartesianDMP.open_loop", "movement_primitives/spring_damper.py: spring_damper_step, SpringDamper.step, SpringDamper.open_loop"]}
{"id": "C116", "title": "ProMPs do not depend on the unit of time and on the choice of the axes", "statement": "Multiplying all query times by a positive factor changes neither what mean_trajectory, cov_trajectory, var_trajectory, mean_velocities, cov_velocities, var_velocities, trajectory_from_weights and weights return nor the array they leave behind, and condition_position depends only on t / t_max. A linear map of the space of positions commutes with the methods: a ProMP with mapped weights has mapped trajectories, velocities and covariances; weights fitted to a mapped trajectory are the mapped weights; conditioning on mapped positions with mapped covariances (for invertible maps) and via points give the mapped ProMP or fail with the same error. A new ProMP is the same in all orthonormal coordinates, and imitate with demonstrations that are rotated, mirrored or have their axes permuted, and with any units of time for each demonstration, learns the rotated distribution and the same noise variance. Finding: units of positions matter for imitate, because learning starts from a distribution with variance 1.", "quantifier": "All ProMPs that can be constructed, numbers of dimensions and weights, query times, factors, linear maps (orthonormal ones for imitate), demonstrations, numbers of iterations and thresholds.", "why_tests_cant": "All rotations and units; expectation maximization has unboundedly many iterations and a test compares a few of them.", "anchors": ["movement_primitives/promp.py: ProMP.weights, ProMP.trajectory_from_weights, ProMP.mean_trajectory, ProMP.cov_trajectory, ProMP.var_trajectory, ProMP.mean_velocities, ProMP.cov_velocities, ProMP.var_velocities, ProMP.condition_position, ProMP.imitate, via_points"]}
{"id": "C117", "title": "Minimum jerk trajectories are straight and do not depend on units and coordinates", "statement": "generate_minimum_jerk returns positions on the straight line from start to goal; the part of the way covered after k steps is the same in all dimensions and for all starts and goals, never decreases, and the speed never exceeds 15/8 of the average speed. Trajectories in other coordinates (any affine map, also to another number of dimensions) are the mapped trajectories with the same exceptions; with another unit of time the positions are the same and velocities and accelerations are converted; trajectories superpose; the trajectory from goal to start is the trajectory from start to goal backwards. The same is true of the steps of MinimumJerkTrajectory, which also end after the same number of steps.", "quantifier": "All starts, goals, numbers of dimensions, affine maps, positive factors of time, positive dt and execution times, numbers of calls of step.", "why_tests_cant": "Each row is computed from the previous one with coefficients that change in every step, so it is an induction over the steps, for all maps and units.", "anchors": ["movement_primitives/data/_minimum_jerk.py: generate_minimum_jerk", "movement_primitives/minimum_jerk_trajectory.py: MinimumJerkTrajectory"]}
{"id": "C118", "title": "Primitives that continue from the passed state remember nothing but the time", "statement": "CartesianDMP.step, StateFollowingDMP.step and, if p_gain is 0, DualCartesianDMP.step continue from the state passed to them and remember nothing but the time: after equally many successful calls, whatever states, coupling terms and step functions were passed, all further calls return the same. SpringDamper and SpringDamperOrientation do not even remember the time: after any history of calls, of any length and including exceptions, further calls of step return what they return without this history.", "quantifier": "All objects, all pairs of histories of step calls (with arbitrary states, coupling terms and step functions), all further calls.", "why_tests_cant": "All histories of calls.", "anchors": ["movement_primitives/dmp/_cartesian_dmp.py: CartesianDMP.step", "movement_primitives/dmp/_dual_cartesian_dmp.py: DualCartesianDMP.step", "movement_primitives/dmp/_state_following_dmp.py: StateFollowingDMP.step", "movement_primitives/spring_damper.py: SpringDamper.step, SpringDamperOrientation.step"]}
{"id": "C119", "title": "Sampled trajectories follow the distribution of the ProMP", "statement": "If random_state.multivariate_normal draws independent, normally distributed weights as documented, the trajectories returned by sample_trajectories are independent and normally distributed with the mean mean_trajectory and the covariance cov_trajectory; each position has the variance of var_trajectory. The velocities of a random trajectory (with respect to time divided by the largest query time) are normally distributed with the mean mean_velocities and the covariance cov_velocities, and each has the variance of var_velocities. After conditioning on a position without noise, all sampled trajectories pass exactly through it with probability 1. The average of the samples converges to mean_trajectory with the number of samples, with probability 1.", "quantifier": "All ProMPs that can be constructed with a positive semidefinite covariance, query times, numbers of samples, probability spaces.", "why_tests_cant": "A statement about probability distributions; a test sees finitely many samples of one random seed.", "anchors": ["movement_primitives/promp.py: ProMP.sample_trajectories, ProMP.mean_trajectory, ProMP.cov_trajectory, ProMP.var_trajectory, ProMP.condition_position"]}
{"id": "C120", "title": "Regularisation coefficients trade accuracy for small weights", "statement": "With a larger regularization coefficient, imitate of DMP, DMPWithFinalVelocity, CartesianDMP and DualCartesianDMP never finds larger weights (sum of squares) and never approximates the demonstrated forces better (sum of squared errors), and the same holds for ProMP.weights and the demonstrated positions. Without regularisation (default of imitate) imitate of DMP, DMPWithFinalVelocity, CartesianDMP and DualCartesianDMP and ProMP.weights find the smallest ones of all weights that approximate the demonstration as well as possible, also if there are more weights than samples; all other such weights are larger, so that the result is unique.", "quantifier": "All DMPs and ProMPs that can be constructed, all demonstrations, numbers of weights and samples, pairs of regularization coefficients.", "why_tests_cant": "All demonstrations and pairs of coefficients; the matrix that is inverted may be singular.", "anchors": ["movement_primitives/dmp/_dmp.py: DMP.imitate, dmp_imitate, ridge_regression", "movement_primitives/dmp/_dmp_with_final_velocity.py: DMPWithFinalVelocity.imitate", "movement_primitives/dmp/_cartesian_dmp.py: CartesianDMP.imitate", "movement_primitives/dmp/_dual_cartesian_dmp.py: DualCartesianDMP.imitate", "movement_primitives/promp.py: ProMP.weights"]}
{"id": "C121", "title": "Conditioning of a ProMP is Bayesian inference and independent of the order of conditions", "statement": "If the weights of a ProMP are drawn from its distribution and the position at time t is observed with independent normally distributed noise with covariance y_cov (without noise if y_cov is not given), then the distribution of the weights given the observation is the one of the ProMP that condition_position returns for the observed position. The same holds for any number of observations with independent noise: the distribution of the weights given all of them is the one that is obtained by calling condition_position for one observed position after the other, and mean_trajectory and cov_trajectory of that ProMP are mean and covariance of the trajectory given all observations, mean_velocities and cov_velocities those of its velocities (with respect to time divided by the largest query time). condition_position raises LinAlgError if and only if some linear combination of the coordinates of the observation has one value with probability 1. If a ProMP is conditioned on several positions one after the other, with or without noise, neither the resulting distribution nor whether LinAlgError is raised depends on the order; via_points has the outcome of these calls without noise. Conditioning on the same position with covariances R and R' is the same as conditioning once with (R^-1 + R'^-1)^-1.", "quantifier": "All ProMPs that can be constructed with a positive semidefinite covariance, all positions, times, positive semidefinite y_cov, numbers and orders of conditions, events and probability spaces.", "why_tests_cant": "A statement about conditional probabilities of all events, and about all permutations of arbitrarily many conditions.", "anchors": ["movement_primitives/promp.py: ProMP.condition_position, via_points"]}
{"id": "C122", "title": "Noise does not bias what DMPs learn and do", "statement": "If weights, start and goal of a DMP (set with set_weights and configure) are drawn from a joint normal distribution, the positions that open_loop without coupling term generates are jointly normally distributed. Their mean is the trajectory for the mean of the parameters. Their covariance is that of the parameters, transformed by the trajectories that belong to single parameters. The same holds for start and goal of SpringDamper. If the positions of a demonstration are normally distributed (e.g. a movement plus measurement noise), then weights, start and goal after DMP.imitate, and the positions of the reproduction with open_loop (also of DMPWithFinalVelocity), are jointly normally distributed; their means are what is learned from the mean demonstration and its reproduction. For independent samples of parameters or demonstrations from any distribution that has a mean, the averages of the learned parameters, of the trajectories and of the reproductions converge with probability 1 to those of the mean parameters or the mean demonstration. Time stamps, number of rows and whether an exception is raised do not depend on the random values.", "quantifier": "All DMPs, run times, step functions, mean vectors, positive semidefinite covariances, demonstrations, regularization coefficients and probability spaces.", "why_tests_cant": "A statement about probability distributions of whole trajectories of any length.", "anchors": ["movement_primitives/dmp/_dmp.py: DMP.configure, DMP.set_weights, DMP.open_loop, DMP.imitate", "movement_primitives/dmp/_dmp_with_final_velocity.py: DMPWithFinalVelocity.imitate, DMPWithFinalVelocity.open_loop", "movement_primitives/spring_damper.py: SpringDamper.open_loop"]}
