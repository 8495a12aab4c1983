import json
r={"mods":["Verif.NN.Convex","Verif.NN.ConvexLoss","Verif.NN.PropsConvex"],"props":[["C88","Training without hidden layers converges",
"Training a network without hidden layers (linear output with the quadratic cost, sigmoid output with cross entropy, softmax output) again and again on one batch, for all initial weights, samples, admissible labels and every lambda >= 0: with a = curvature * mean(1+|x|^2) + lambda (curvature 1, 1/4, 1/2), the cost plus lambda/2 times the squared weights never rises if lrate*a <= 2; if lrate*a <= 1 it is after t rounds at most that of any weights V plus |W0-V|^2/(2*lrate*t), and converges to the infimum over all weights; with lambda > 0 the optimum is unique and the weights converge to it geometrically by the factor 1 - lrate*lambda. If lambda = 0 and some weights separate the classes (softmax) or the signs (sigmoid), then from some round on predict returns the right class of every sample, or every output is on the right side of 1/2.",
"all samples, labels, initial weights, learning rates under the bound, lambda >= 0 and numbers of rounds",
"convergence is a statement about infinitely many rounds and all data; a test runs a few rounds on one data set.",
["src/nn/neuralnet.cpp: forwardprop, backprop, update, computecost, predict","src/layer/layer.cpp","src/layer/quadraticoutput.cpp","src/layer/crossentropyoutput.cpp","src/layer/softmaxoutput.cpp"]]],
"notes":{"C88":["proved","Exact arithmetic. Networks with hidden layers are not convex and are outside the statement (C33 gives local descent for them)."]},
"design":"(C88) Gradient descent on a smooth convex function over weight tables (Convex.lean): descent lemma, distance recursion, strong convexity; the three costs are shown convex with the stated curvature (ConvexLoss.lean, log-sum-exp by a second derivative bound); the training round of the model is shown to be exactly one such step."}
json.dump(r,open('/tmp/gen/r88.json','w'))
