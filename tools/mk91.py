import json
r={"mods":["Verif.NN.HeavyBall","Verif.NN.PropsHeavyBall"],"props":[["C91","Training with momentum converges",
"Train a network without hidden layers (linear output with the quadratic cost, sigmoid output with cross entropy, softmax output) with a MomentumTrainer of momentum 0 <= m < 1 on one batch again and again, with a = curvature*mean(1+|x|^2) + lambda as in C88. If lrate*a <= 2 no call raises the penalised cost plus lrate*m/(2(1-m)) times the squared averaged gradient. If lrate*a < 2 the penalised cost converges to the infimum over all weights; if some weights reach it, the weights converge to weights that reach it; with lambda > 0 they converge to the only optimum. With lambda = 0 and separable classes or signs, from some call on predict is right on every sample, or every output is on the right side of 1/2.",
"all samples, admissible labels, initial weights, momenta in [0,1), learning rates under the bound, lambda >= 0 and numbers of calls",
"convergence is a statement about infinitely many calls and all data; a test runs a few calls on one data set.",
["src/trainer/momentumtrainer.cpp: feeddata, initmomentum","src/nn/neuralnet.cpp: forwardprop, backprop, update, computecost, predict","src/layer/layer.cpp: update(grad)"]]],
"notes":{"C91":["proved","Exact arithmetic. Networks with hidden layers are not convex and are outside the statement."]},
"design":"(C91) Heavy-ball iteration on a smooth convex function (HeavyBall.lean): the energy falls by a share of |v|^2, so the averaged gradients are square summable; z = W - lrate*m/(1-m)*v makes plain gradient steps, its distance to an optimum plus a multiple of the objective is quasi-monotone, and a cluster point is the limit. The trainer's call is shown to be one such step."}
json.dump(r,open('/tmp/gen/r91.json','w'))
