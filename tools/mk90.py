import json
r={"mods":["Verif.NN.Kaczmarz","Verif.NN.PropsEpoch"],"props":[["C90","Every trainer without momentum learns linear data that can be fitted",
"Take a network without hidden layers, with a linear output, the quadratic cost and lambda = 0, and data x, y which some weights fit exactly. If lrate*(1+|x_i|^2) < 2 for every sample x_i, then calling feeddata(x, y) again and again on a Trainer, an SGDTrainer or a BatchTrainer (2 <= batch size <= samples+1) without decay makes the weights converge to weights that fit every sample exactly, and the cost reported by computecost converge to 0, from every initial weight.",
"all data that can be fitted, all numbers of samples, sizes, initial weights, learning rates under the bound and batch sizes",
"a limit over infinitely many epochs for all data sets; a test runs some epochs on one data set and checks a tolerance.",
["src/trainer/trainer.cpp: feeddata","src/trainer/sgdtrainer.cpp: feeddata","src/trainer/batchtrainer.cpp: feeddata","src/nn/neuralnet.cpp: forwardprop, backprop, update, computecost"]]],
"notes":{"C90":["proved","Exact arithmetic. Trainers with momentum are outside the statement (C42, C43); batch size 1 fails, see C41."]},
"design":"(C90) Cyclic (block) Kaczmarz iteration: the distance to any fitting weights never rises, the fall bounds the residual, a limit point exists by compactness and fits all batches, hence is the limit (Kaczmarz.lean). The trainers are reduced to sequences of batches by C40 and C41."}
json.dump(r,open('/tmp/gen/r90.json','w'))
